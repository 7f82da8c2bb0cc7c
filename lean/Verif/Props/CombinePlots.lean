import Verif.Spec.TransitionPlots
import Verif.Props.ParseParams2
import Mathlib.Data.List.ProdSigma
/-
C60, C76: the grid of transition plots.
-/
namespace Skill
open Spec
variable {τ : Type}

/-! ### orders -/

theorem firstSeen_append (xs : List String) (a : String) : firstSeen (xs ++ [a]) = if a ∈ firstSeen xs then firstSeen xs else firstSeen xs ++ [a] := by
  unfold firstSeen
  rw [List.foldl_append]
  rfl

theorem mem_firstSeen (xs : List String) (s : String) : s ∈ firstSeen xs ↔ s ∈ xs := by
  induction xs using List.reverseRecOn with
  | nil => rfl
  | append_singleton xs a ih =>
    rw [firstSeen_append]
    split_ifs with h
    · rw [ih, List.mem_append, List.mem_singleton]
      constructor
      · exact Or.inl
      · rintro (h' | rfl)
        · exact h'
        · exact ih.mp h
    · rw [List.mem_append, ih, List.mem_append]

theorem firstSeen_order (xs : List String) : (firstSeen xs).Pairwise (fun a b => xs.idxOf a < xs.idxOf b) := by
  induction xs using List.reverseRecOn with
  | nil => exact List.Pairwise.nil
  | append_singleton xs a ih =>
    have hold : (firstSeen xs).Pairwise (fun x y => (xs ++ [a]).idxOf x < (xs ++ [a]).idxOf y) := by
      refine (List.Pairwise.imp_of_mem ?_ ih)
      intro x y hx hy h
      rw [List.idxOf_append_of_mem ((mem_firstSeen xs x).mp hx), List.idxOf_append_of_mem ((mem_firstSeen xs y).mp hy)]
      exact h
    rw [firstSeen_append]
    split_ifs with h
    · exact hold
    · rw [List.pairwise_append]
      refine ⟨hold, List.pairwise_singleton _ _, ?_⟩
      intro x hx y hy
      rw [List.mem_singleton] at hy
      subst hy
      have h1 := (mem_firstSeen xs x).mp hx
      have h2 : y ∉ xs := fun h' => h ((mem_firstSeen xs y).mpr h')
      rw [List.idxOf_append_of_mem h1, List.idxOf_append_of_notMem h2]
      have := List.idxOf_lt_length_of_mem h1
      omega

theorem processOrders_spec (columns rows : OrderArg) (keys : List (String × String)) :
    OrderIs columns (keys.map Prod.fst) (processOrders columns rows keys).1 ∧ OrderIs rows (keys.map Prod.snd) (processOrders columns rows keys).2 := by
  constructor
  · cases columns with
    | none => exact ⟨fun _ => ⟨mem_firstSeen _, firstSeen_order _⟩, fun s h => (by cases h), fun s h => (by cases h)⟩
    | name s => exact ⟨fun h => (by cases h), fun s h => (by cases h; rfl), fun s h => (by cases h)⟩
    | names s => exact ⟨fun h => (by cases h), fun s h => (by cases h), fun s h => (by cases h; rfl)⟩
  · cases rows with
    | none => exact ⟨fun _ => ⟨mem_firstSeen _, firstSeen_order _⟩, fun s h => (by cases h), fun s h => (by cases h)⟩
    | name s => exact ⟨fun h => (by cases h), fun s h => (by cases h; rfl), fun s h => (by cases h)⟩
    | names s => exact ⟨fun h => (by cases h), fun s h => (by cases h), fun s h => (by cases h; rfl)⟩

/-- The specification determines the order. -/
theorem orderIs_unique {order : OrderArg} {occurring xs ys : List String} (hx : OrderIs order occurring xs) (hy : OrderIs order occurring ys) : xs = ys := by
  cases order with
  | none =>
    obtain ⟨h1, h2⟩ := hx.1 rfl
    obtain ⟨h3, h4⟩ := hy.1 rfl
    have n1 : xs.Nodup := h2.imp (fun h e => by rw [e] at h; exact lt_irrefl _ h)
    have n2 : ys.Nodup := h4.imp (fun h e => by rw [e] at h; exact lt_irrefl _ h)
    refine List.Perm.eq_of_pairwise ?_ h2 h4 ((List.perm_ext_iff_of_nodup n1 n2).mpr (fun s => by rw [h1, h3]))
    intro a b _ _ h h'
    omega
  | name s => rw [hx.2.1 s rfl, hy.2.1 s rfl]
  | names s => rw [hx.2.2 s rfl, hy.2.2 s rfl]

/-! ### titles -/

theorem get?_append (d e : Dict String) (k : String) : Dict.get? (d ++ e) k = (Dict.get? d k).or (Dict.get? e k) := by
  unfold Dict.get?
  rw [List.find?_append]
  cases d.find? (fun kv => kv.1 == k) <;> rfl

theorem mapping_fold (all : List String) (d : Dict String) (f : String) :
    Dict.get? (all.foldl (fun d f => if (Dict.get? d f).isSome then d else d ++ [(f, f)]) d) f = (Dict.get? d f).or (if f ∈ all then some f else none) := by
  induction all generalizing d with
  | nil => simp
  | cons a as ih =>
    rw [List.foldl_cons, ih]
    by_cases ha : (Dict.get? d a).isSome
    · rw [if_pos ha]
      by_cases hfa : f = a
      · subst hfa
        obtain ⟨v, hv⟩ := Option.isSome_iff_exists.mp ha
        rw [hv]
        rfl
      · simp [hfa]
    · rw [if_neg ha, get?_append]
      have h0 : Dict.get? d a = none := by simpa using ha
      by_cases hfa : f = a
      · subst hfa
        rw [h0]
        simp [Dict.get?]
      · have : Dict.get? [(a, a)] f = none := by simp [Dict.get?, Ne.symm hfa]
        rw [this]
        simp [hfa]

theorem get?_identity (all : List String) (f : String) : Dict.get? (all.map (fun f => (f, f))) f = if f ∈ all then some f else none := by
  induction all with
  | nil => rfl
  | cons a as ih =>
    by_cases hfa : f = a
    · subst hfa; simp [Dict.get?]
    · have : Dict.get? ((a :: as).map (fun f => (f, f))) f = Dict.get? (as.map (fun f => (f, f))) f := by
        simp [Dict.get?, List.find?_cons, Ne.symm hfa]
      rw [this, ih]
      simp [hfa]

theorem mapping_get {mapper : Option (Dict String)} {outputs inputs : List String} {f : String} (h : f ∈ inputs ++ outputs) :
    Dict.getItem (processFactorMapping mapper outputs inputs) f = .ok (displayName mapper f) := by
  have : Dict.get? (processFactorMapping mapper outputs inputs) f = some (displayName mapper f) := by
    cases mapper with
    | none =>
      show Dict.get? ((inputs ++ outputs).map (fun f => (f, f))) f = some f
      rw [get?_identity, if_pos h]
    | some d =>
      show Dict.get? ((inputs ++ outputs).foldl _ d) f = some ((Dict.get? d f).getD f)
      rw [mapping_fold, if_pos h]
      cases Dict.get? d f <;> rfl
  unfold Dict.getItem
  rw [this]

/-! ### cells -/

/-- The cell that belongs to a row and a column. -/
def cellOf (hideLegend : τ → τ) (plots : List ((String × String) × List τ)) (mapper : Option (Dict String)) (x : (String × String) × Nat × Nat) : PlotCell τ where
  row := x.2.1
  col := x.2.2
  traces := if x.2.1 = 0 ∧ x.2.2 = 0 then (plots.lookup (x.1.2, x.1.1)).getD [] else ((plots.lookup (x.1.2, x.1.1)).getD []).map hideLegend
  xTitle := displayName mapper x.1.2
  yTitle := if x.2.2 = 0 then some (displayName mapper x.1.1) else none

theorem combineCell_ok (hideLegend : τ → τ) (plots : List ((String × String) × List τ)) (mapper : Option (Dict String)) {rows columns : List String} {x : (String × String) × Nat × Nat}
    (h1 : x.1.1 ∈ rows) (h2 : x.1.2 ∈ columns) : combineCell hideLegend plots (processFactorMapping mapper rows columns) x = .ok (cellOf hideLegend plots mapper x) := by
  unfold combineCell cellOf
  simp only []
  rw [mapping_get (List.mem_append_left _ h2), mapping_get (List.mem_append_right _ h1)]
  by_cases h : x.2.2 = 0 <;> by_cases h' : x.2.1 = 0 <;> simp [h, h'] <;> rfl

/-- The pairs of an output factor, an input factor and a position. -/
theorem product_zip (rows columns : List String) :
    (rows.product columns).zip ((List.range rows.length).product (List.range columns.length)) =
      (List.range rows.length).flatMap (fun r => (List.range columns.length).map (fun c => ((rows.getD r "", columns.getD c ""), (r, c)))) := by
  have h1 : rows = (List.range rows.length).map (fun r => rows.getD r "") := by
    apply List.ext_getElem (by simp)
    intro i hi _
    simp [List.getD_eq_getElem?_getD, List.getElem?_eq_getElem hi]
  have h2 : columns = (List.range columns.length).map (fun r => columns.getD r "") := by
    apply List.ext_getElem (by simp)
    intro i hi _
    simp [List.getD_eq_getElem?_getD, List.getElem?_eq_getElem hi]
  have h3 : rows.product columns = ((List.range rows.length).product (List.range columns.length)).map (fun rc => (rows.getD rc.1 "", columns.getD rc.2 "")) := by
    conv_lhs => rw [h1, h2]
    unfold List.product
    rw [List.flatMap_map, List.map_flatMap]
    congr 1
    funext r
    simp
  rw [h3, List.zip_map_left]
  unfold List.product
  have hz : ∀ l : List (ℕ × ℕ), l.zip l = l.map (fun a => (a, a)) := fun l => by
    induction l with
    | nil => rfl
    | cons a as ih => rw [List.zip_cons_cons, ih, List.map_cons]
  rw [hz, List.map_map, List.map_flatMap]
  congr 1
  funext r
  simp

theorem combine_ok_iff {hideLegend : τ → τ} {plots : List ((String × String) × List τ)} {columnOrder rowOrder : OrderArg} {mapper : Option (Dict String)} {columns rows : List String}
    (hc : OrderIs columnOrder (plots.map (fun p => p.1.1)) columns) (hr : OrderIs rowOrder (plots.map (fun p => p.1.2)) rows) :
    combineTransitionPlots hideLegend plots columnOrder rowOrder mapper =
      if columns = [] ∨ rows = [] then .error (emptyOrderError columns)
      else .ok ((List.range rows.length).flatMap (fun r => (List.range columns.length).map (fun c => cellOf hideLegend plots mapper ((rows.getD r "", columns.getD c ""), (r, c))))) := by
  obtain ⟨h1, h2⟩ := processOrders_spec columnOrder rowOrder (plots.map Prod.fst)
  rw [List.map_map] at h1 h2
  have e1 := orderIs_unique h1 hc
  have e2 := orderIs_unique h2 hr
  unfold combineTransitionPlots
  simp only [e1, e2]
  split_ifs with h
  · rfl
  · rw [product_zip, mapM_pure_ok _ (cellOf hideLegend plots mapper)]
    · rw [List.map_flatMap]
      simp only [List.map_map]
      rfl
    · intro x hx
      obtain ⟨r, hr', hx⟩ := List.mem_flatMap.mp hx
      obtain ⟨c, hc', rfl⟩ := List.mem_map.mp hx
      rw [List.mem_range] at hr' hc'
      refine combineCell_ok hideLegend plots mapper ?_ ?_
      · show rows.getD r "" ∈ rows
        rw [List.getD_eq_getElem?_getD, List.getElem?_eq_getElem hr', Option.getD_some]
        exact List.getElem_mem hr'
      · show columns.getD c "" ∈ columns
        rw [List.getD_eq_getElem?_getD, List.getElem?_eq_getElem hc', Option.getD_some]
        exact List.getElem_mem hc'

/-- **C60**, errors: without columns the figure is a ZeroDivisionError, with columns but without rows a ValueError. -/
theorem C60_empty_order (hideLegend : τ → τ) (plots : List ((String × String) × List τ)) (columnOrder rowOrder : OrderArg) (mapper : Option (Dict String)) {columns rows : List String}
    (hc : OrderIs columnOrder (plots.map (fun p => p.1.1)) columns) (hr : OrderIs rowOrder (plots.map (fun p => p.1.2)) rows) :
    (columns = [] → combineTransitionPlots hideLegend plots columnOrder rowOrder mapper = .error .zeroDivisionError) ∧
    (columns ≠ [] → rows = [] → combineTransitionPlots hideLegend plots columnOrder rowOrder mapper = .error .valueError) := by
  rw [combine_ok_iff hc hr]
  refine ⟨fun h => ?_, fun h1 h2 => ?_⟩
  · rw [if_pos (Or.inl h), emptyOrderError, if_pos h]
  · rw [if_pos (Or.inr h2), emptyOrderError, if_neg h1]

/-- **C60.** Let `columns` and `rows` be the requested names (or the input and output factors of the plots, in the order in which they first occur). The figure exists if there is at least one row and one column;
it has one cell for each row and column. The cell in the column of `input` and the row of `output` has exactly the traces of the plot (input, output), or none if there is no such plot; only the first cell
contributes to the legend. The x-axis has the name of the input factor as title, the y-axis in the first column the name of the output factor. -/
theorem C60_placement (hideLegend : τ → τ) (plots : List ((String × String) × List τ)) (columnOrder rowOrder : OrderArg) (mapper : Option (Dict String)) {columns rows : List String}
    (hc : OrderIs columnOrder (plots.map (fun p => p.1.1)) columns) (hr : OrderIs rowOrder (plots.map (fun p => p.1.2)) rows) :
    ((∃ cells, combineTransitionPlots hideLegend plots columnOrder rowOrder mapper = .ok cells) ↔ columns ≠ [] ∧ rows ≠ []) ∧
    ∀ cells, combineTransitionPlots hideLegend plots columnOrder rowOrder mapper = .ok cells → IsGrid cells rows.length columns.length ∧
      ∀ cell ∈ cells, ∀ input output, columns[cell.col]? = some input → rows[cell.row]? = some output →
        (∀ traces, ((input, output), traces) ∈ plots → (plots.map Prod.fst).Nodup → cell.traces = if cell.row = 0 ∧ cell.col = 0 then traces else traces.map hideLegend) ∧
        ((input, output) ∉ plots.map Prod.fst → cell.traces = []) ∧
        cell.xTitle = displayName mapper input ∧ (cell.col = 0 → cell.yTitle = some (displayName mapper output)) ∧ (cell.col ≠ 0 → cell.yTitle = none) := by
  rw [combine_ok_iff hc hr]
  constructor
  · split_ifs with h
    · constructor
      · rintro ⟨_, h'⟩; cases h'
      · rintro ⟨h1, h2⟩; exact absurd h (by simp [h1, h2])
    · push Not at h
      exact ⟨fun _ => h, fun _ => ⟨_, rfl⟩⟩
  intro cells h
  split_ifs at h with hne
  have h := (Except.ok.inj h).symm
  subst h
  refine ⟨⟨?_, ?_⟩, ?_⟩
  · rw [List.map_flatMap]
    simp only [List.map_map]
    show ((List.range rows.length).product (List.range columns.length)).Nodup
    exact List.nodup_range.product List.nodup_range
  · intro r c
    simp only [List.mem_flatMap, List.mem_map, List.mem_range]
    constructor
    · rintro ⟨_, ⟨r', h1, c', h2, rfl⟩, h3, h4⟩
      have h3 : r' = r := h3
      have h4 : c' = c := h4
      subst h3 h4
      exact ⟨h1, h2⟩
    · rintro ⟨h1, h2⟩
      exact ⟨_, ⟨r, h1, c, h2, rfl⟩, rfl, rfl⟩
  · intro cell hcell input output h1 h2
    simp only [List.mem_flatMap, List.mem_map, List.mem_range] at hcell
    obtain ⟨r, hr', c, hc', rfl⟩ := hcell
    have h1 : columns[c]? = some input := h1
    have h2 : rows[r]? = some output := h2
    rw [List.getD_eq_getElem?_getD, List.getD_eq_getElem?_getD, h1, h2]
    simp only [Option.getD_some]
    refine ⟨fun traces ht hn => ?_, fun hno => ?_, rfl, fun h0 => ?_, fun h0 => ?_⟩
    · have hl : plots.lookup (input, output) = some traces := lookup_of_mem hn ht
      simp only [cellOf, hl, Option.getD_some]
    · have hl : plots.lookup (input, output) = none := by
        rw [List.lookup_eq_none_iff]
        intro p hp
        rw [bne_iff_ne]
        intro e
        exact hno (List.mem_map.mpr ⟨p, hp, e.symm⟩)
      simp [cellOf, hl]
    · have h0 : c = 0 := h0
      simp [cellOf, h0]
    · have h0 : c ≠ 0 := h0
      simp [cellOf, h0]

/-! ### C76 -/

/-- The documentation of combine_transition_plots: column_order has the names of output factors and row_order has the names of input factors. `cells` is the figure for these orders. -/
def DocumentedOrders (hideLegend : τ → τ) (plots : List ((String × String) × List τ)) (columns rows : List String) (cells : List (PlotCell τ)) : Prop :=
  ∀ cell ∈ cells, ∀ output input, columns[cell.col]? = some output → rows[cell.row]? = some input → ∀ traces, ((input, output), traces) ∈ plots →
    cell.traces = traces ∨ cell.traces = traces.map hideLegend

/-- **C76 is false.** There is one plot, of the transition equation of "b" as function of "a". The user follows the documentation: the output factor is the column and the input factor the row. The figure is empty. -/
theorem C76_counterexample :
    ∃ (plots : List ((String × String) × List (List Nat))) (cells : List (PlotCell (List Nat))), (plots.map Prod.fst).Nodup ∧
      combineTransitionPlots id plots (.names ["b"]) (.names ["a"]) none = .ok cells ∧ (∀ cell ∈ cells, cell.traces = []) ∧ ¬DocumentedOrders id plots ["b"] ["a"] cells := by
  refine ⟨[(("a", "b"), [[1]])], [⟨0, 0, [], "b", some "a"⟩], by decide +kernel, rfl, by simp, ?_⟩
  intro h
  have := h ⟨0, 0, [], "b", some "a"⟩ (List.mem_singleton.mpr rfl) "b" "a" rfl rfl [[1]] (List.mem_singleton.mpr rfl)
  simp at this

/-- **C76** (part). The documented meaning of the orders is right for the plots of a factor against itself: the cell in the column and the row of the same factor has the plot of this factor as function of itself.
Missing: cells with different factors, where column and row are exchanged (see `C76_counterexample` and `C60_placement`). -/
theorem C76_documented_orders_partial (hideLegend : τ → τ) (plots : List ((String × String) × List τ)) (columns rows : List String) (mapper : Option (Dict String)) (hn : (plots.map Prod.fst).Nodup)
    {cells : List (PlotCell τ)} (h : combineTransitionPlots hideLegend plots (.names columns) (.names rows) mapper = .ok cells) :
    ∀ cell ∈ cells, ∀ factor, columns[cell.col]? = some factor → rows[cell.row]? = some factor → ∀ traces, ((factor, factor), traces) ∈ plots →
      cell.traces = if cell.row = 0 ∧ cell.col = 0 then traces else traces.map hideLegend := by
  intro cell hcell factor h1 h2 traces ht
  have hc : OrderIs (.names columns) (plots.map (fun p => p.1.1)) columns := ⟨fun h => (by cases h), fun s h => (by cases h), fun s h => (by cases h; rfl)⟩
  have hr : OrderIs (.names rows) (plots.map (fun p => p.1.2)) rows := ⟨fun h => (by cases h), fun s h => (by cases h), fun s h => (by cases h; rfl)⟩
  exact (((C60_placement hideLegend plots _ _ mapper hc hr).2 cells h).2 cell hcell factor factor h1 h2).1 traces ht hn

end Skill
