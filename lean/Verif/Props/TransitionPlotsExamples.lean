import Verif.Props.TransitionPlots
import Verif.Props.CorrelationExamples
/-
The hypotheses of C60 and C77-C79 can be met.
-/
namespace Skill
open Spec
namespace Ex

/-- States of three individuals in two periods. -/
noncomputable def plotStates : List StateRow :=
  [0, 1, 2].flatMap (fun i => [0, 1].map (fun t => { id := i, period := t, values := fun f => if f = "a" ∨ f = "b" then some ((i : ℝ) + t) else none }))

theorem plotStates_ok : StatesOfData (some linearData) [1, 2, 3] [10, 20] plotStates where
  index := by
    rintro df ⟨⟩
    exact ⟨linearData_index.1, linearData_index.2.1, linearData_ids⟩
  ids := by
    intro r hr
    simp only [plotStates, List.mem_flatMap, List.mem_map, List.mem_cons, List.not_mem_nil, or_false] at hr
    obtain ⟨i, hi, t, _, rfl⟩ := hr
    show i < 3
    omega

theorem plotStates_value (f : String) (hf : f ∈ allFactors linearModel) : HasValueInPeriod linearModel (some linearData) [1, 2, 3] [10, 20] plotStates 0 f := by
  refine ⟨{ id := 0, period := 0, values := fun f => if f = "a" ∨ f = "b" then some (((0 : ℕ) : ℝ) + (0 : ℕ)) else none }, by simp [plotStates], rfl, ?_⟩
  rintro v (⟨⟨spec, hl⟩, rfl⟩ | ⟨ho, df, row, a, hdf, hrow, ha, hk⟩)
  · simp only [linearModel, List.mem_cons, Prod.mk.injEq, List.not_mem_nil, or_false] at hl
    rcases hl with ⟨rfl, _⟩ | ⟨rfl, _⟩ <;> simp
  · obtain rfl := Option.some.inj hdf
    have hrow' := linearData_row (i := 0) (t := 0) (by norm_num) (by norm_num)
    have hrow2 : row = some (linearRow ((0 : ℕ) + 1) (10 * ((0 : ℕ) + 1))) := by
      cases row with
      | none => exact absurd hrow'.2 (hrow.2 _ hrow'.1)
      | some row =>
        obtain ⟨h1, h2, h3⟩ := hrow
        simp only [linearData, List.mem_cons, List.not_mem_nil, or_false] at h1
        rcases h1 with rfl | rfl | rfl | rfl | rfl | rfl <;> simp [linearRow] at h2 h3 ⊢
    subst hrow2
    rcases hk with ⟨hinc, _⟩ | ⟨_, rfl⟩
    · exact absurd hinc linearData_complete
    · rw [valueIs_of_none rfl] at ha
      simp only [linearModel, Option.getD_some, List.mem_singleton] at ho
      subst ho
      rw [ha, linearRow_value (by decide) (by simp)]
      rfl

theorem linearModel_usable (custom : String → CustomFn) (output : String) (spec : FactorSpec ℝ) (hs : (output, spec) ∈ linearModel.factors) (v : String → ℝ) :
    TransFn.Usable (allFactors linearModel) v (transFnOf (custom output) spec.transition) := by
  simp only [linearModel, List.mem_cons, Prod.mk.injEq, List.not_mem_nil, or_false] at hs
  rcases hs with ⟨rfl, rfl⟩ | ⟨rfl, rfl⟩
  · exact ⟨rfl, fun h => by simp at h⟩
  · exact ⟨rfl, fun h => by simp at h⟩

theorem linearModel_safe : ∀ f, IsLatent linearModel f → querySafe f := by
  rintro f ⟨spec, hmem⟩
  simp only [linearModel, List.mem_cons, Prod.mk.injEq, List.not_mem_nil, or_false] at hmem
  rcases hmem with ⟨rfl, rfl⟩ | ⟨rfl, rfl⟩ <;> decide

theorem linearModel_mixtures : ¬HasNMixtures linearModel 0 := by
  rintro ⟨o, ho, h⟩
  obtain rfl := Option.some.inj ho
  rcases h with h | ⟨_, h⟩
  · cases h
  · cases h

theorem linearParams_values {pm : Processed ℝ} (hpm : processModel linearModel = .ok pm) : ((linearParams pm).map Prod.fst).Nodup ∧ ∀ l, IsParam linearModel l → (l, linearValues l) ∈ linearParams pm :=
  ⟨(linearParams_ok hpm []).distinct, fun l hl => List.mem_map.mpr ⟨l, (mem_paramsIndex_iff hpm l).mpr hl, rfl⟩⟩

/-- Plots with the other factors at the first and third quartile, and plots with averages over two individuals; the keys and the curve of "a" as function of the observed factor "o". -/
theorem linearModel_plots (nan : ℝ) (custom : String → CustomFn) : ∃ pm plots plots', processModel linearModel = .ok pm ∧
    getTransitionPlots nan (fun _ _ => [0, 2]) custom linearModel (linearParams pm) (some linearData) plotStates 0 none (.numbers [1 / 4, 3 / 4]) 5 2 = .ok plots ∧
    getTransitionPlots nan (fun _ _ => [0, 2]) custom linearModel (linearParams pm) (some linearData) plotStates 0 none .none 5 2 = .ok plots' ∧
    ("o", "a") ∈ plots.map Prod.fst ∧ ("a", "o") ∉ plots.map Prod.fst ∧
    (∃ plot, (("o", "a"), plot) ∈ plots ∧ plot.traces.length = 2 ∧ ∀ trace ∈ plot.traces, trace.length = 5 ∧ ∀ p ∈ trace, ∀ q ∈ trace, q.2 - p.2 = 1 / 2 * (q.1 - p.1)) ∧
    ∃ plot trace, (("o", "a"), plot) ∈ plots' ∧ plot.traces = [trace] ∧ trace ≠ [] := by
  obtain ⟨pm, hpm, _⟩ := linearModel_ok
  obtain ⟨hd, hv⟩ := linearParams_values hpm
  have ht : IsPeriod linearModel (0 + 1) := (linearModel_period _).mpr (by norm_num)
  have hdata : linearModel.observedFactors.getD [] ≠ [] → ∃ df, some linearData = some df ∧ DataOk linearModel df [1, 2, 3] [10, 20] := fun _ => ⟨_, rfl, linearData_ok⟩
  have hq : AsksFor (.numbers [1 / 4, 3 / 4]) [1 / 4, 3 / 4] := Or.inr rfl
  have hcount : (plotStates.filter (fun r => decide (r.period = 0))).length = 3 := by simp [plotStates]
  have hsp : ("a", _) ∈ linearModel.factors := List.mem_cons_self
  obtain ⟨plots, h1⟩ := C78_plots_exist nan (fun _ _ => [0, 2]) custom hpm linearModel_names (noNameClash_of_none rfl) linearModel_clean linearModel_safe linearModel_mixtures hd hv plotStates_ok hdata ht
    (Or.inl ⟨rfl, plotStates_value⟩) hq (by simp) (by norm_num) 5 2 (fun output spec hs => linearModel_usable custom output spec hs _)
  obtain ⟨plots', h2⟩ := C79_plots_exist nan (fun _ _ => [0, 2]) custom hpm linearModel_names (noNameClash_of_none rfl) linearModel_clean linearModel_safe linearModel_mixtures hd hv plotStates_ok hdata ht
    (Or.inl ⟨rfl, plotStates_value⟩) 5 2 (by rw [hcount]; norm_num) (fun _ _ => ⟨by simp, by rw [hcount]; simp⟩) (fun output spec hs => linearModel_usable custom output spec hs _)
  have hkeys := ((C78_keys nan (fun _ _ => [0, 2]) custom hpm linearModel_names (linearParams pm) (some linearData) plotStates 0 none (.numbers [1 / 4, 3 / 4]) 5 2).2 plots h1).2
  have ho : "o" ∈ allFactors linearModel := by simp [allFactors, linearModel]
  refine ⟨pm, plots, plots', hpm, h1, h2, (hkeys _ _).mpr ⟨ho, _, hsp⟩, ?_, ?_, ?_⟩
  · rw [hkeys]
    rintro ⟨_, spec, hl⟩
    simp [linearModel] at hl
  · obtain ⟨plot, lo, hi, hmem, _, _, _, hall⟩ := C77_fixed_quantiles h1 linearModel_names (noNameClash_of_none rfl) plotStates_ok hv hq (by norm_num) (by norm_num) ho hsp (linearModel_usable custom _ _ hsp _)
    refine ⟨plot, hmem, by rw [← hall.length_eq]; rfl, ?_⟩
    intro trace htr
    have : ∀ {qs : List ℝ} {traces : List (List (ℝ × ℝ))} {R : ℝ → List (ℝ × ℝ) → Prop}, List.Forall₂ R qs traces → trace ∈ traces → ∃ q, R q trace := by
      intro qs traces R h hm
      induction h with
      | nil => cases hm
      | cons hab _ ih =>
        rcases List.mem_cons.mp hm with rfl | hm
        · exact ⟨_, hab⟩
        · exact ih hm
    obtain ⟨_, hlen, _, others, _, hon⟩ := this hall htr
    refine ⟨hlen, fun p hp q hq => ?_⟩
    have := C77_linear_slope linearModel_names linearValues 0 ho others (hon p hp) (hon q hq)
    rw [this]
    simp [linearValues]
  · obtain ⟨_, plot, lo, hi, trace, hmem, _, _, _, htr, _, ⟨grid, hlen, _, hgrid⟩, _⟩ := C79_averages h2 linearModel_names (noNameClash_of_none rfl) plotStates_ok hv ho hsp (linearModel_usable custom _ _ hsp _)
    refine ⟨plot, trace, hmem, htr, ?_⟩
    rintro rfl
    obtain ⟨x, xs, rfl⟩ := List.exists_cons_of_ne_nil (l := grid) (by rintro rfl; simp at hlen)
    simpa using (hgrid x).mpr List.mem_cons_self

/-- The last period has no transition equation. -/
example (nan : ℝ) (sample : String → String → List Nat) (custom : String → CustomFn) (params : List (Loc × ℝ)) (arg : QuantileArg) (nPoints nDraws : ℕ) :
    getTransitionPlots nan sample custom linearModel params (some linearData) plotStates 1 none arg nPoints nDraws = .error .valueError := by
  obtain ⟨pm, hpm, _⟩ := linearModel_ok
  refine (C78_keys nan sample custom hpm linearModel_names params (some linearData) plotStates 1 none arg nPoints nDraws).1 ?_ ?_
  · rw [linearModel_period]; norm_num
  · rw [linearModel_period]; norm_num

/-- A figure with two columns and one row; the order of the columns is given. -/
example : combineTransitionPlots (fun n : ℕ => n + 100) [(("a", "b"), [1, 2]), (("b", "b"), [3])] (.names ["b", "a", "c"]) .none (some [("a", "skill")]) =
    .ok [⟨0, 0, [3], "b", some "b"⟩, ⟨0, 1, [101, 102], "skill", none⟩, ⟨0, 2, [], "c", none⟩] := rfl

end Ex
end Skill
