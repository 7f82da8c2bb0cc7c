import Verif.Props.DistributionPlots
/-
C83: the figure that combines plots of distributions.
-/
namespace Skill
open Spec
variable {τ : Type}

theorem titleIs_iff {mapper : Option (Dict String)} {factors : List String} {f title : String} :
    Dict.getItem (processFactorMappingDist mapper factors) f = .ok title ↔ TitleIs mapper factors f title := by
  have hget : Dict.get? (processFactorMappingDist mapper factors) f = (mapper.bind (fun d => Dict.get? d f)).or (if f ∈ factors then some f else none) := by
    cases mapper with
    | none => exact get?_identity factors f
    | some d => exact mapping_fold factors d f
  have h1 : Dict.getItem (processFactorMappingDist mapper factors) f = .ok title ↔ Dict.get? (processFactorMappingDist mapper factors) f = some title := by
    unfold Dict.getItem
    cases Dict.get? (processFactorMappingDist mapper factors) f with
    | none => simp
    | some v => simp
  rw [h1, hget]
  unfold TitleIs
  cases mapper with
  | none =>
    by_cases hf : f ∈ factors
    · simp [hf, eq_comm]
    · simp [hf]
  | some d =>
    cases hd : Dict.get? d f with
    | none =>
      by_cases hf : f ∈ factors
      · simp [hd, hf, eq_comm]
      · simp [hd, hf]
    | some v => simp [hd]

theorem getItem_iff {β : Type} {d : Dict β} {k : String} {v : β} : Dict.getItem d k = .ok v ↔ Dict.get? d k = some v := by
  unfold Dict.getItem
  cases Dict.get? d k with
  | none => simp
  | some v => simp

theorem pairItem_iff {β : Type} {d : List ((String × String) × β)} {k : String × String} {v : β} : pairItem d k = .ok v ↔ d.lookup k = some v := by
  unfold pairItem
  cases d.lookup k with
  | none => simp
  | some v => simp

theorem distributionCell_iff (hideLegend : τ → τ) (kdes : Dict (DistPlot τ)) (contours : List ((String × String) × DistPlot τ)) (surfaces : Option (List ((String × String) × DistPlot τ))) (mapper : Option (Dict String))
    (fac1 fac2 : String) (r c : ℕ) (cell : DistCell τ) :
    distributionCell hideLegend kdes contours surfaces (processFactorMappingDist mapper (kdes.map Prod.fst)) ((fac1, c), (fac2, r)) = .ok cell ↔
      cell.row = r ∧ cell.col = c ∧ DistCellIs hideLegend kdes contours surfaces mapper fac1 fac2 cell := by
  obtain ⟨row, col, traces, xTitle, yTitle⟩ := cell
  unfold distributionCell
  simp only []
  by_cases h1 : c < r
  · rw [if_pos h1]
    unfold contourCell
    rw [py_bind_ok]
    constructor
    · rintro ⟨plot, hp, h⟩
      rw [pairItem_iff] at hp
      split_ifs at h with ht
      · rw [py_pure_ok, DistCell.mk.injEq] at h
        obtain ⟨rfl, rfl, rfl, rfl, rfl⟩ := h
        exact ⟨rfl, rfl, fun _ => ⟨plot, hp, by simp [ht], fun _ => ⟨rfl, rfl⟩, fun h => absurd ht h⟩, fun h => absurd h (by simp only []; omega), fun h => absurd h (by simp only []; omega)⟩
      · obtain ⟨x, hx, h⟩ := py_bind_ok.mp h
        obtain ⟨y, hy, h⟩ := py_bind_ok.mp h
        rw [py_pure_ok, DistCell.mk.injEq] at h
        obtain ⟨rfl, rfl, rfl, rfl, rfl⟩ := h
        exact ⟨rfl, rfl, fun _ => ⟨plot, hp, rfl, fun h => absurd h ht, fun _ => ⟨x, y, rfl, rfl, titleIs_iff.mp hx, titleIs_iff.mp hy⟩⟩, fun h => absurd h (by simp only []; omega),
          fun h => absurd h (by simp only []; omega)⟩
    · rintro ⟨rfl, rfl, hc⟩
      obtain ⟨plot, hp, htr, he, hn⟩ := hc.below h1
      refine ⟨plot, pairItem_iff.mpr hp, ?_⟩
      simp only [] at htr he hn
      by_cases ht : plot.traces = []
      · obtain ⟨rfl, rfl⟩ := he ht
        rw [if_pos ht, py_pure_ok, htr, ht, List.map_nil]
      · obtain ⟨x, y, rfl, rfl, hx, hy⟩ := hn ht
        rw [if_neg ht]
        refine py_bind_ok.mpr ⟨x, titleIs_iff.mpr hx, py_bind_ok.mpr ⟨y, titleIs_iff.mpr hy, ?_⟩⟩
        rw [py_pure_ok, htr]
  · rw [if_neg h1]
    by_cases h2 : r = c
    · subst h2
      rw [if_pos rfl]
      unfold kdeCell
      rw [py_bind_ok]
      constructor
      · rintro ⟨plot, hp, h⟩
        rw [getItem_iff] at hp
        by_cases ht : plot.traces = []
        · rw [if_pos ht, py_pure_ok, DistCell.mk.injEq] at h
          obtain ⟨rfl, rfl, rfl, rfl, rfl⟩ := h
          exact ⟨rfl, rfl, fun h => absurd h (by simp), fun _ => ⟨plot, hp, by simp [ht], fun _ => ⟨rfl, rfl⟩, fun h => absurd ht h⟩, fun h => absurd h (by simp)⟩
        · rw [if_neg ht] at h
          obtain ⟨x, hx, h⟩ := py_bind_ok.mp h
          rw [py_pure_ok, DistCell.mk.injEq] at h
          obtain ⟨rfl, rfl, rfl, rfl, rfl⟩ := h
          exact ⟨rfl, rfl, fun h => absurd h (by simp), fun _ => ⟨plot, hp, rfl, fun h => absurd h ht, fun _ => ⟨rfl, x, rfl, titleIs_iff.mp hx⟩⟩, fun h => absurd h (by simp)⟩
      · rintro ⟨rfl, rfl, hc⟩
        obtain ⟨plot, hp, htr, he, hn⟩ := hc.diagonal rfl
        refine ⟨plot, getItem_iff.mpr hp, ?_⟩
        simp only [] at htr he hn
        by_cases ht : plot.traces = []
        · obtain ⟨rfl, rfl⟩ := he ht
          rw [if_pos ht, py_pure_ok, htr, ht, List.map_nil, ite_self]
        · obtain ⟨rfl, x, rfl, hx⟩ := hn ht
          rw [if_neg ht]
          refine py_bind_ok.mpr ⟨x, titleIs_iff.mpr hx, ?_⟩
          rw [py_pure_ok, htr]
    · rw [if_neg h2]
      unfold surfaceCell
      cases surfaces with
      | none =>
        simp only [Except.ok.injEq, DistCell.mk.injEq]
        constructor
        · rintro ⟨rfl, rfl, rfl, rfl, rfl⟩
          exact ⟨rfl, rfl, fun h => absurd h (by simp only []; omega), fun h => absurd h (by simp only []; omega), fun _ => ⟨fun _ => ⟨rfl, rfl, rfl⟩, fun d hd => by cases hd⟩⟩
        · rintro ⟨rfl, rfl, hc⟩
          obtain ⟨e1, e2, e3⟩ := (hc.above (by simp only []; omega)).1 rfl
          exact ⟨rfl, rfl, e1.symm, e2.symm, e3.symm⟩
      | some d =>
        simp only []
        rw [py_bind_ok]
        constructor
        · rintro ⟨plot, hp, h⟩
          obtain ⟨trace, ht, h⟩ := py_bind_ok.mp h
          rw [py_pure_ok, DistCell.mk.injEq] at h
          obtain ⟨rfl, rfl, rfl, rfl, rfl⟩ := h
          rw [pairItem_iff] at hp
          rw [pyIndex_ok] at ht
          refine ⟨rfl, rfl, fun h => absurd h (by simp only []; omega), fun h => absurd h (by simp only []; omega), fun _ => ⟨fun h => by (cases h), fun d' hd => ?_⟩⟩
          obtain rfl := Option.some.inj hd
          exact ⟨plot, trace, hp, by rw [List.head?_eq_getElem?]; exact ht, rfl, rfl, rfl⟩
        · rintro ⟨rfl, rfl, hc⟩
          obtain ⟨plot, trace, hp, ht, e1, e2, e3⟩ := (hc.above (by simp only []; omega)).2 d rfl
          simp only [] at e1 e2 e3
          subst e1 e2 e3
          refine ⟨plot, pairItem_iff.mpr hp, py_bind_ok.mpr ⟨trace, ?_, by rw [py_pure_ok]⟩⟩
          rw [pyIndex_ok, ← List.head?_eq_getElem?]
          exact ht

/-- **C83.** Let `names` be the requested factors (all factors with a density plot by default). If the figure exists then it has one cell for each pair of positions, and each cell shows what it should. -/
theorem C83_figure (hideLegend : τ → τ) (kdes : Dict (DistPlot τ)) (contours : List ((String × String) × DistPlot τ)) (surfaces : Option (List ((String × String) × DistPlot τ))) (order : OrderArg)
    (mapper : Option (Dict String)) {names : List String} (hnames : DistOrder order (kdes.map Prod.fst) names) {cells : List (DistCell τ)}
    (h : combineDistributionPlots hideLegend kdes contours surfaces order mapper = .ok cells) :
    IsSquare cells names.length ∧
      ∀ cell ∈ cells, ∀ fac1 fac2, names[cell.col]? = some fac1 → names[cell.row]? = some fac2 → DistCellIs hideLegend kdes contours surfaces mapper fac1 fac2 cell := by
  have horder : getOrderedFactors order (kdes.map Prod.fst) = names := by
    obtain ⟨h1, h2, h3⟩ := hnames
    cases order with
    | none => exact (h1 rfl).symm
    | name s => exact (h2 s rfl).symm
    | names xs => exact (h3 xs rfl).symm
  unfold combineDistributionPlots at h
  simp only [horder] at h
  split_ifs at h with hne
  have hall := (mapM_ok_iff _ _ _).mp h
  have hpos : List.Forall₂ (fun (x : (String × ℕ) × (String × ℕ)) (cell : DistCell τ) => cell.row = x.2.2 ∧ cell.col = x.1.2 ∧ DistCellIs hideLegend kdes contours surfaces mapper x.1.1 x.2.1 cell)
      (names.zipIdx.product names.zipIdx) cells := hall.imp (fun x cell hx => (distributionCell_iff hideLegend kdes contours surfaces mapper x.1.1 x.2.1 x.2.2 x.1.2 cell).mp hx)
  have hmap : cells.map (fun c => (c.row, c.col)) = (names.zipIdx.product names.zipIdx).map (fun x => (x.2.2, x.1.2)) := by
    clear h hall
    generalize names.zipIdx.product names.zipIdx = positions at hpos ⊢
    induction hpos with
    | nil => rfl
    | cons hab _ ih => rw [List.map_cons, List.map_cons, ih, hab.1, hab.2.1]
  have hidx : names.zipIdx.map Prod.snd = List.range names.length := by rw [List.zipIdx_map_snd, List.range_eq_range']
  have hprod : (names.zipIdx.product names.zipIdx).map (fun x => (x.2.2, x.1.2)) = ((List.range names.length).product (List.range names.length)).map Prod.swap := by
    rw [← hidx]
    unfold List.product
    rw [List.map_flatMap, List.map_flatMap, List.flatMap_map]
    congr 1
    funext a
    rw [List.map_map, List.map_map, List.map_map]
    rfl
  refine ⟨⟨?_, ?_⟩, ?_⟩
  · rw [hmap, hprod]
    exact (List.nodup_range.product List.nodup_range).map Prod.swap_injective
  · intro r c
    have : (∃ cell ∈ cells, cell.row = r ∧ cell.col = c) ↔ (r, c) ∈ cells.map (fun c => (c.row, c.col)) := by
      rw [List.mem_map]
      simp only [Prod.mk.injEq]
    rw [this, hmap, hprod, List.mem_map]
    constructor
    · rintro ⟨⟨a, b⟩, hab, heq⟩
      have hab := List.mem_product.mp hab
      rw [List.mem_range, List.mem_range] at hab
      simp only [Prod.swap_prod_mk, Prod.mk.injEq] at heq
      obtain ⟨rfl, rfl⟩ := heq
      exact ⟨hab.2, hab.1⟩
    · rintro ⟨h1, h2⟩
      exact ⟨(c, r), List.mem_product.mpr ⟨List.mem_range.mpr h2, List.mem_range.mpr h1⟩, rfl⟩
  · intro cell hcell fac1 fac2 hf1 hf2
    obtain ⟨x, hx, h1, h2, h3⟩ : ∃ x ∈ names.zipIdx.product names.zipIdx, cell.row = x.2.2 ∧ cell.col = x.1.2 ∧ DistCellIs hideLegend kdes contours surfaces mapper x.1.1 x.2.1 cell := by
      clear h hall hmap hprod
      generalize names.zipIdx.product names.zipIdx = positions at hpos ⊢
      induction hpos with
      | nil => cases hcell
      | cons hab _ ih =>
        rcases List.mem_cons.mp hcell with rfl | hc
        · exact ⟨_, List.mem_cons_self, hab⟩
        · obtain ⟨x, hx, h⟩ := ih hc
          exact ⟨x, List.mem_cons_of_mem _ hx, h⟩
    obtain ⟨⟨n1, c⟩, ⟨n2, r⟩⟩ := x
    obtain ⟨hx1, hx2⟩ := List.mem_product.mp hx
    rw [List.mem_zipIdx_iff_getElem?] at hx1 hx2
    simp only [] at h1 h2 h3 hx1 hx2
    rw [h2, hx1] at hf1
    rw [h1, hx2] at hf2
    obtain rfl := Option.some.inj hf1
    obtain rfl := Option.some.inj hf2
    exact h3

/-- **C83.** The figure exists if and only if there is at least one factor and all cells can be filled. -/
theorem C83_exists (hideLegend : τ → τ) (kdes : Dict (DistPlot τ)) (contours : List ((String × String) × DistPlot τ)) (surfaces : Option (List ((String × String) × DistPlot τ))) (order : OrderArg)
    (mapper : Option (Dict String)) {names : List String} (hnames : DistOrder order (kdes.map Prod.fst) names) :
    (∃ cells, combineDistributionPlots hideLegend kdes contours surfaces order mapper = .ok cells) ↔
      names ≠ [] ∧ ∀ r c fac1 fac2, names[c]? = some fac1 → names[r]? = some fac2 → ∃ cell, cell.row = r ∧ cell.col = c ∧ DistCellIs hideLegend kdes contours surfaces mapper fac1 fac2 cell := by
  have horder : getOrderedFactors order (kdes.map Prod.fst) = names := by
    obtain ⟨h1, h2, h3⟩ := hnames
    cases order with
    | none => exact (h1 rfl).symm
    | name s => exact (h2 s rfl).symm
    | names xs => exact (h3 xs rfl).symm
  constructor
  · rintro ⟨cells, h⟩
    obtain ⟨⟨_, hsq⟩, hc⟩ := C83_figure hideLegend kdes contours surfaces order mapper hnames h
    refine ⟨?_, ?_⟩
    · intro h0
      unfold combineDistributionPlots at h
      simp only [horder, h0, if_true] at h
      cases h
    · intro r c fac1 fac2 h1 h2
      obtain ⟨cell, hcell, hr, hcc⟩ := (hsq r c).mpr ⟨(List.getElem?_eq_some_iff.mp h2).1, (List.getElem?_eq_some_iff.mp h1).1⟩
      exact ⟨cell, hr, hcc, hc cell hcell fac1 fac2 (by rw [hcc]; exact h1) (by rw [hr]; exact h2)⟩
  · rintro ⟨hne, hall⟩
    unfold combineDistributionPlots
    simp only [horder, if_neg hne]
    refine mapM_exists (fun x hx => ?_)
    obtain ⟨⟨n1, c⟩, ⟨n2, r⟩⟩ := x
    obtain ⟨hx1, hx2⟩ := List.mem_product.mp hx
    rw [List.mem_zipIdx_iff_getElem?] at hx1 hx2
    obtain ⟨cell, hcell⟩ := hall r c n1 n2 hx1 hx2
    exact ⟨cell, (distributionCell_iff hideLegend kdes contours surfaces mapper n1 n2 r c cell).mpr hcell⟩

/-- **C83**, errors: a figure without factors is a ZeroDivisionError. -/
theorem C83_empty_order (hideLegend : τ → τ) (kdes : Dict (DistPlot τ)) (contours : List ((String × String) × DistPlot τ)) (surfaces : Option (List ((String × String) × DistPlot τ))) (mapper : Option (Dict String)) :
    combineDistributionPlots hideLegend kdes contours surfaces (.names []) mapper = .error .zeroDivisionError ∧
    (kdes = [] → combineDistributionPlots hideLegend kdes contours surfaces .none mapper = .error .zeroDivisionError) := by
  refine ⟨rfl, ?_⟩
  rintro rfl
  rfl

end Skill
