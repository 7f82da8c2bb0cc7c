import Verif.Props.CombineDistributions
import Verif.Props.CorrelationErrors
/- Errors of combine_distribution_plots (visualize_factor_distributions.py). -/
namespace Skill
open Spec
variable {τ : Type}

theorem getItem_keyErrors {β : Type} (d : Dict β) (k : String) : OnlyKeyErrors (Dict.getItem d k) := by
  unfold Dict.getItem
  cases Dict.get? d k with
  | none => rintro e ⟨⟩; rfl
  | some v => exact OnlyKeyErrors.ok

theorem pairItem_keyErrors {β : Type} (d : List ((String × String) × β)) (k : String × String) : OnlyKeyErrors (pairItem d k) := by
  unfold pairItem
  cases d.lookup k with
  | none => rintro e ⟨⟩; rfl
  | some v => exact OnlyKeyErrors.ok

theorem distributionCell_keyErrors (hideLegend : τ → τ) (kdes : Dict (DistPlot τ)) (contours : List ((String × String) × DistPlot τ)) {surfaces : Option (List ((String × String) × DistPlot τ))}
    (hs : ∀ d, surfaces = some d → ∀ kp ∈ d, kp.2.traces ≠ []) (names : Dict String) (x : (String × Nat) × (String × Nat)) : OnlyKeyErrors (distributionCell hideLegend kdes contours surfaces names x) := by
  unfold distributionCell
  split
  · unfold contourCell
    refine (pairItem_keyErrors _ _).bind (fun plot _ => ?_)
    split
    · exact OnlyKeyErrors.ok
    · exact (getItem_keyErrors _ _).bind (fun _ _ => (getItem_keyErrors _ _).bind (fun _ _ => OnlyKeyErrors.ok))
  · split
    · unfold kdeCell
      refine (getItem_keyErrors _ _).bind (fun plot _ => ?_)
      split
      · exact OnlyKeyErrors.ok
      · exact (getItem_keyErrors _ _).bind (fun _ _ => OnlyKeyErrors.ok)
    · unfold surfaceCell
      split
      · exact OnlyKeyErrors.ok
      · rename_i d
        refine (pairItem_keyErrors _ _).bind (fun plot hp => ?_)
        have hne := hs d rfl _ (lookup_mem (pairItem_iff.mp hp))
        obtain ⟨t, ts, ht⟩ := List.exists_cons_of_ne_nil hne
        simp only [] at ht
        rw [ht]
        exact OnlyKeyErrors.ok

/-- **C83** (errors). With at least one factor and no empty surface plot, all errors are KeyErrors. There is one if a plot is missing: the contour plot of a cell below the diagonal, the density plot of a factor or,
if there are surface plots at all, the surface plot of a cell above the diagonal. -/
theorem C83_errors (hideLegend : τ → τ) (kdes : Dict (DistPlot τ)) (contours : List ((String × String) × DistPlot τ)) (surfaces : Option (List ((String × String) × DistPlot τ))) (order : OrderArg)
    (mapper : Option (Dict String)) {names : List String} (hnames : DistOrder order (kdes.map Prod.fst) names) (hne : names ≠ []) (hs : ∀ d, surfaces = some d → ∀ kp ∈ d, kp.2.traces ≠ []) :
    (∀ e, combineDistributionPlots hideLegend kdes contours surfaces order mapper = .error e → e = .keyError) ∧
    ((∃ (r c : ℕ) (fac1 fac2 : String), names[c]? = some fac1 ∧ names[r]? = some fac2 ∧
      ((c < r ∧ contours.lookup (fac1, fac2) = none) ∨ (c = r ∧ Dict.get? kdes fac1 = none) ∨ (r < c ∧ ∃ d, surfaces = some d ∧ d.lookup (fac1, fac2) = none))) →
      combineDistributionPlots hideLegend kdes contours surfaces order mapper = .error .keyError) := by
  have horder : getOrderedFactors order (kdes.map Prod.fst) = names := by
    obtain ⟨h1, h2, h3⟩ := hnames
    cases order with
    | none => exact (h1 rfl).symm
    | name s => exact (h2 s rfl).symm
    | names xs => exact (h3 xs rfl).symm
  have key : OnlyKeyErrors (combineDistributionPlots hideLegend kdes contours surfaces order mapper) := by
    unfold combineDistributionPlots
    simp only [horder]
    rw [if_neg hne]
    exact OnlyKeyErrors.mapM (fun x _ => distributionCell_keyErrors hideLegend kdes contours hs _ x)
  refine ⟨key, ?_⟩
  rintro ⟨r, c, fac1, fac2, h1, h2, hmiss⟩
  refine key.error (fun cells hc => ?_)
  obtain ⟨cell, rfl, rfl, hcell⟩ := ((C83_exists hideLegend kdes contours surfaces order mapper hnames).mp ⟨cells, hc⟩).2 r c fac1 fac2 h1 h2
  rcases hmiss with ⟨h, h0⟩ | ⟨h, h0⟩ | ⟨h, d, hd, h0⟩
  · obtain ⟨plot, hp, _⟩ := hcell.below h
    rw [h0] at hp
    cases hp
  · obtain ⟨plot, hp, _⟩ := hcell.diagonal h
    rw [h0] at hp
    cases hp
  · obtain ⟨plot, trace, hp, _⟩ := (hcell.above h).2 d hd
    rw [h0] at hp
    cases hp

/-- Two densities without a contour plot: there is no figure. -/
theorem Ex.C83_errors_example : combineDistributionPlots (fun x : ℕ => x) [("a", { traces := [1], xTitle := "", yTitle := "" }), ("b", { traces := [2], xTitle := "", yTitle := "" })] [] none .none none = .error .keyError :=
  (C83_errors _ _ _ _ _ _ (names := ["a", "b"]) ⟨fun _ => rfl, fun s h => (by cases h), fun xs h => (by cases h)⟩ (by simp) (fun d h => (by cases h))).2 ⟨1, 0, "a", "b", rfl, rfl, Or.inl ⟨by norm_num, rfl⟩⟩

end Skill
