import Verif.Lemmas.TransitionPlots
import Verif.Props.CombinePlots
/-
C77-C79: plots of transition equations.
-/
namespace Skill
open Spec

/-! ### the dictionary of plots -/

theorem processQuantiles_asks {arg : QuantileArg} {qs : List ℝ} (h : AsksFor arg qs) : processQuantiles arg = some qs := by
  rcases h with ⟨q, rfl, rfl⟩ | rfl <;> rfl

theorem checkPlotPeriod_eq {m : ModelDict ℝ} {pm : Processed ℝ} (hpm : processModel m = .ok pm) (t : ℕ) :
    (IsPeriod m (t + 1) → checkPlotPeriod pm.labels.periods t = .ok ()) ∧ (¬IsPeriod m (t + 1) → IsPeriod m 0 → checkPlotPeriod pm.labels.periods t = .error .valueError) := by
  rw [isPeriod_iff hpm, isPeriod_iff hpm]
  have hper := (labels_of_ok hpm).2.2.2.1
  have hlast : ∀ n, 0 < n → (List.range n).getLast? = some (n - 1) := by
    intro n hn
    rw [List.getLast?_eq_getElem?, List.length_range, List.getElem?_range (by omega)]
  unfold checkPlotPeriod
  rw [hper]
  constructor
  · intro h
    rw [hlast _ (by omega)]
    simp only []
    rw [if_neg (by omega)]
  · intro h h0
    rw [hlast _ h0]
    simp only []
    rw [if_pos (by omega)]

/-- The plot of each pair. -/
theorem getTransitionPlots_ok {nan : ℝ} {sample : String → String → List Nat} {custom : String → CustomFn} {m : ModelDict ℝ} {params : List (Loc × ℝ)} {data : Option (LongData ℝ)}
    {states : List StateRow} {t : ℕ} {stateRanges : Option (Dict (List (Nat × ℝ × ℝ)))} {arg : QuantileArg} {nPoints nDraws : ℕ} {plots : List ((String × String) × TransitionPlot)}
    (h : getTransitionPlots nan sample custom m params data states t stateRanges arg nPoints nDraws = .ok plots) :
    ∃ pm sd values parsed, processModel m = .ok pm ∧ checkPlotPeriod pm.labels.periods t = .ok () ∧ getStatesData pm t data states = .ok sd ∧ setIndexParams nan params pm.paramsIndex = .ok values ∧
      pm.parse Real.log values 1 = .ok parsed ∧
      List.Forall₂ (fun oi kp => kp.1 = (oi.2, oi.1) ∧ oneTransitionPlot nan sample (transitionFns custom m) (allFactors m) parsed.transition stateRanges sd (processQuantiles arg) t nPoints nDraws oi.1 oi.2 = .ok kp.2)
        ((m.factors.map Prod.fst).product (allFactors m)) plots := by
  unfold getTransitionPlots at h
  simp only [] at h
  rw [py_bind_ok] at h
  obtain ⟨pm, hpm, h⟩ := h
  rw [py_bind_ok] at h
  obtain ⟨u, hcheck, h⟩ := h
  rw [py_bind_ok] at h
  obtain ⟨sd, hsd, h⟩ := h
  rw [py_bind_ok] at h
  obtain ⟨values, hvalues, h⟩ := h
  rw [py_bind_ok] at h
  obtain ⟨parsed, hparsed, h⟩ := h
  refine ⟨pm, sd, values, parsed, hpm, hcheck, hsd, hvalues, hparsed, ?_⟩
  rw [mapM_ok_iff, (labels_of_ok hpm).1, (labels_of_ok hpm).2.2.2.2.1] at h
  refine h.imp ?_
  intro oi kp hk
  rw [py_bind_ok] at hk
  obtain ⟨plot, h1, h2⟩ := hk
  obtain rfl := Except.ok.inj h2
  exact ⟨rfl, h1⟩

/-- The parameters of the DataFrame by label. -/
theorem setIndexParams_ok {nan : ℝ} {params : List (Loc × ℝ)} {index : List Loc} {values : List ℝ} {val : Loc → ℝ} (h : setIndexParams nan params index = .ok values) (hv : ∀ l ∈ index, (l, val l) ∈ params) :
    values = index.map val := by
  unfold setIndexParams at h
  split_ifs at h with hn
  rw [← Except.ok.inj h]
  refine List.map_congr_left (fun l hl => ?_)
  rw [lookup_of_mem hn (hv l hl)]
  rfl

theorem transitionFns_get {m : ModelDict ℝ} (hk : DictKeys m) (custom : String → CustomFn) {output : String} {spec : FactorSpec ℝ} (hs : (output, spec) ∈ m.factors) :
    Dict.getItem (transitionFns custom m) output = .ok (transFnOf (custom output) spec.transition) := by
  refine Dict.getItem_of_mem ?_ (List.mem_map.mpr ⟨(output, spec), hs, rfl⟩)
  unfold transitionFns
  rw [List.map_map]
  exact hk.factors

/-- The parameters of the transition function of a factor in a period. -/
theorem transition_params {m : ModelDict ℝ} {pm : Processed ℝ} (hpm : processModel m = .ok pm) (hg : GoodNames m) {val : Loc → ℝ} {parsed : Parsed ℝ}
    (hp : pm.parse Real.log (pm.paramsIndex.map val) 1 = .ok parsed) (custom : String → CustomFn) {output : String} {spec : FactorSpec ℝ} (hs : (output, spec) ∈ m.factors) {t : ℕ} (ht : IsPeriod m (t + 1)) :
    ∃ arr, Dict.getItem parsed.transition output = .ok arr ∧
      pyIndex arr t = .ok ((paramNamesOf (allFactors m) (transFnOf (custom output) spec.transition)).map (fun name => val ⟨.transition, t, output, name⟩)) := by
  have htr := (labels_of_ok hpm).2.2.2.2.2.1
  obtain ⟨h1, _, h2, _⟩ := getTransitionInfo_spec htr
  have hl : (getLabels m pm.dimensions).allFactors = allFactors m := rfl
  rw [hl] at h2
  obtain ⟨pn, hpn, hpn1, fnn, hpn2⟩ := forall₂_mem h2 hs
  obtain ⟨_, _, _, _, _, _, _, hc⟩ := C07_parsed_values hpm hg rfl hp
  rw [isPeriod_iff hpm] at ht
  refine ⟨(List.range (pm.dimensions.nPeriods - 1)).map (fun t => pn.2.map (fun nm => val ⟨.transition, t, output, nm⟩)), ?_, ?_⟩
  · rw [hc]
    refine Dict.getItem_of_mem ?_ ?_
    · rw [List.map_map]
      show (pm.transitionInfo.paramNames.map Prod.fst).Nodup
      rw [h1]
      exact hg.keys.factors
    · refine List.mem_map.mpr ⟨pn, hpn, ?_⟩
      rw [hpn1]
  · rw [pyIndex_ok, List.getElem?_map, List.getElem?_range (by omega)]
    rw [Option.map_some, transitionNames_paramNames (custom output) hpn2]

/-- One plot in terms of labels. -/
theorem oneTransitionPlot_eq {m : ModelDict ℝ} {pm : Processed ℝ} (hpm : processModel m = .ok pm) (hg : GoodNames m) {val : Loc → ℝ} {parsed : Parsed ℝ}
    (hp : pm.parse Real.log (pm.paramsIndex.map val) 1 = .ok parsed) (custom : String → CustomFn) {output : String} {spec : FactorSpec ℝ} (hs : (output, spec) ∈ m.factors) {t : ℕ} (ht : IsPeriod m (t + 1))
    (nan : ℝ) (sample : String → String → List Nat) (stateRanges : Option (Dict (List (Nat × ℝ × ℝ)))) (sd : List StateRow) (quantiles : Option (List ℝ)) (nPoints nDraws : ℕ) (input : String) :
    oneTransitionPlot nan sample (transitionFns custom m) (allFactors m) parsed.transition stateRanges sd quantiles t nPoints nDraws output input =
      (do
        let range ← inputRange stateRanges sd input t
        let traces ← plotTraces nan (sample input output) sd range t nPoints nDraws input output (transFnOf (custom output) spec.transition)
          ((paramNamesOf (allFactors m) (transFnOf (custom output) spec.transition)).map (fun name => val ⟨.transition, t, output, name⟩)) (allFactors m) quantiles
        pure { traces := traces, xTitle := input, yTitle := output }) := by
  obtain ⟨arr, h1, h2⟩ := transition_params hpm hg hp custom hs ht
  unfold oneTransitionPlot
  rw [transitionFns_get hg.keys custom hs, h1]
  show (pyIndex arr t >>= _) = _
  rw [h2]
  rfl

/-- From the result to the plot of one pair. -/
theorem plot_of_pair {nan : ℝ} {sample : String → String → List Nat} {custom : String → CustomFn} {m : ModelDict ℝ} {params : List (Loc × ℝ)} {data : Option (LongData ℝ)}
    {states : List StateRow} {t : ℕ} {stateRanges : Option (Dict (List (Nat × ℝ × ℝ)))} {arg : QuantileArg} {nPoints nDraws : ℕ} {plots : List ((String × String) × TransitionPlot)}
    (h : getTransitionPlots nan sample custom m params data states t stateRanges arg nPoints nDraws = .ok plots) (hg : GoodNames m) {val : Loc → ℝ} (hv : ∀ l, IsParam m l → (l, val l) ∈ params)
    {input output : String} {spec : FactorSpec ℝ} (hi : input ∈ allFactors m) (hs : (output, spec) ∈ m.factors) :
    ∃ pm sd plot range, processModel m = .ok pm ∧ IsPeriod m (t + 1) ∧ getStatesData pm t data states = .ok sd ∧ ((input, output), plot) ∈ plots ∧ plot.xTitle = input ∧ plot.yTitle = output ∧
      inputRange stateRanges sd input t = .ok range ∧
      plotTraces nan (sample input output) sd range t nPoints nDraws input output (transFnOf (custom output) spec.transition)
          ((paramNamesOf (allFactors m) (transFnOf (custom output) spec.transition)).map (fun name => val ⟨.transition, t, output, name⟩)) (allFactors m) (processQuantiles arg) = .ok plot.traces := by
  obtain ⟨pm, sd, values, parsed, hpm, hcheck, hsd, hvalues, hparsed, hall⟩ := getTransitionPlots_ok h
  have ht : IsPeriod m (t + 1) := by
    by_contra hno
    have h0 : IsPeriod m 0 := by
      rw [isPeriod_iff hpm]
      have := (parse_needs hpm hparsed).2
      omega
    rw [(checkPlotPeriod_eq hpm t).2 hno h0] at hcheck
    cases hcheck
  have hval := setIndexParams_ok hvalues (fun l hl => hv l ((mem_paramsIndex_iff hpm l).mp hl))
  subst hval
  obtain ⟨kp, hmem, hkey, hone⟩ := forall₂_mem hall (x := (output, input)) (List.mem_product.mpr ⟨List.mem_map.mpr ⟨_, hs, rfl⟩, hi⟩)
  rw [oneTransitionPlot_eq hpm hg hparsed custom hs ht, py_bind_ok] at hone
  obtain ⟨range, hr, hone⟩ := hone
  rw [py_bind_ok] at hone
  obtain ⟨traces, htr, hone⟩ := hone
  have hplot := Except.ok.inj hone
  refine ⟨pm, sd, kp.2, range, hpm, ht, hsd, ?_, by rw [← hplot], by rw [← hplot], hr, by rw [← hplot]; exact htr⟩
  have : kp = ((input, output), kp.2) := by rw [← hkey]
  rw [← this]
  exact hmem

theorem isPeriod_pred {m : ModelDict ℝ} {t : ℕ} (h : IsPeriod m (t + 1)) : IsPeriod m t := by
  obtain ⟨n, hn, ht⟩ := h
  exact ⟨n, hn, by omega⟩

/-! ### C77 -/

/-- **C77.** Suppose that get_transition_plots returns a dictionary. `val` has the values of the parameters by their labels. The plot of (input, output) has one curve for each requested quantile, in this order;
each consists of `nPoints` points that are evenly spaced between the limits of the axis (the given ones or the smallest and largest value of the input factor in the period), and the points are on the graph of the
transition equation of the output factor in the period, where all other factors are fixed at the quantile of their values in the period. -/
theorem C77_fixed_quantiles {nan : ℝ} {sample : String → String → List Nat} {custom : String → CustomFn} {m : ModelDict ℝ} {params : List (Loc × ℝ)} {data : Option (LongData ℝ)}
    {states : List StateRow} {t : ℕ} {stateRanges : Option (Dict (List (Nat × ℝ × ℝ)))} {arg : QuantileArg} {qs : List ℝ} {nPoints nDraws : ℕ} {plots : List ((String × String) × TransitionPlot)}
    (h : getTransitionPlots nan sample custom m params data states t stateRanges arg nPoints nDraws = .ok plots) (hg : GoodNames m) (hclash : NoNameClash m) {ids pers : List Int}
    (hstates : StatesOfData data ids pers states) {val : Loc → ℝ} (hv : ∀ l, IsParam m l → (l, val l) ∈ params) (hq : AsksFor arg qs) (hn : qs.Nodup) (hpos : 0 < nPoints)
    {input output : String} {spec : FactorSpec ℝ} (hi : input ∈ allFactors m) (hs : (output, spec) ∈ m.factors)
    (hu : TransFn.Usable (allFactors m) (fun name => val ⟨.transition, t, output, name⟩) (transFnOf (custom output) spec.transition)) :
    ∃ plot lo hi, ((input, output), plot) ∈ plots ∧ plot.xTitle = input ∧ plot.yTitle = output ∧ LimitsAre m data ids pers states t stateRanges input lo hi ∧
      List.Forall₂ (fun q trace => trace.length = nPoints ∧ EvenlySpaced (trace.map Prod.fst) lo hi ∧
        ∃ others : String → ℝ, (∀ f ∈ allFactors m, f ≠ input → ∃ vals, ValuesInPeriod m data ids pers states t f vals ∧ (vals ≠ [] → QuantileIs vals q (others f))) ∧
          ∀ p ∈ trace, OnCurve m val t input output (transFnOf (custom output) spec.transition) others p) qs plot.traces := by
  obtain ⟨pm, sd, plot, range, hpm, ht, hsd, hmem, hx, hy, hr, htr⟩ := plot_of_pair h hg hv hi hs
  have hrows := statesData_rows hpm hg hclash hstates (isPeriod_pred ht) hsd
  have hf : output ∈ allFactors m := List.mem_append_left _ (List.mem_map.mpr ⟨_, hs, rfl⟩)
  refine ⟨plot, range.1, range.2, hmem, hx, hy, inputRange_limits hrows hi hr, ?_⟩
  rw [processQuantiles_asks hq] at htr
  unfold plotTraces at htr
  simp only [] at htr
  rw [fixedQuantileData_eq hf hu] at htr
  by_cases hc : qs ≠ [] ∧ ∀ q ∈ qs, 0 ≤ q ∧ q ≤ 1
  · rw [if_pos hc] at htr
    have htr := Except.ok.inj htr
    rw [quantile_traces qs hc.1 _ (by
      intro q _ hnil
      have := congrArg List.length hnil
      unfold curvePoints at this
      rw [List.length_map, linspace_length] at this
      simp at this
      omega) hn] at htr
    rw [← htr, List.forall₂_map_right_iff, List.forall₂_same]
    intro q hq'
    obtain ⟨hfst, hon⟩ := curvePoints_spec m val t input output (transFnOf (custom output) spec.transition) (fun f => pandasQuantile nan (periodValues sd t f) q) (linspace range.1 range.2 nPoints)
    refine ⟨by unfold curvePoints; rw [List.length_map, linspace_length], by rw [hfst]; exact linspace_even _ _ _, _, ?_, hon⟩
    intro f hf' _
    exact ⟨_, valuesInPeriod_of hrows hf', fun hne => quantile_spec nan hne (hc.2 q hq').1 (hc.2 q hq').2⟩
  · rw [if_neg hc] at htr
    cases htr

/-- **C77.** If the transition function of the output factor is linear then all curves are straight lines, and their common slope is the parameter of the input factor. -/
theorem C77_linear_slope {m : ModelDict ℝ} (hg : GoodNames m) (val : Loc → ℝ) (t : ℕ) {input output : String} (hi : input ∈ allFactors m) (others : String → ℝ) {p q : ℝ × ℝ}
    (hp : OnCurve m val t input output (.builtin "linear") others p) (hq : OnCurve m val t input output (.builtin "linear") others q) :
    q.2 - p.2 = val ⟨.transition, t, output, input⟩ * (q.1 - p.1) := by
  unfold OnCurve at hp hq
  rw [hp, hq]
  show linearValue _ _ _ - linearValue _ _ _ = _
  unfold linearValue linearTerms
  have hsub : ∀ (l : List String) (F G : String → ℝ), (l.map F).sum - (l.map G).sum = (l.map (fun f => F f - G f)).sum := by
    intro l F G
    induction l with
    | nil => simp
    | cons a as ih =>
      rw [List.map_cons, List.map_cons, List.map_cons, List.sum_cons, List.sum_cons, List.sum_cons, ← ih]
      ring
  rw [add_sub_add_right_eq_sub, hsub]
  have : (allFactors m).map (fun f => val ⟨.transition, t, output, f⟩ * (if f = input then q.1 else others f) - val ⟨.transition, t, output, f⟩ * (if f = input then p.1 else others f)) =
      (allFactors m).map (fun f => if f = input then val ⟨.transition, t, output, input⟩ * (q.1 - p.1) else 0) := by
    refine List.map_congr_left (fun f _ => ?_)
    by_cases h : f = input
    · subst h
      simp only [if_true]
      ring
    · simp [h]
  rw [this]
  have hsum : ∀ (l : List String) (c : ℝ), l.Nodup → input ∈ l → (l.map (fun f => if f = input then c else 0)).sum = c := by
    intro l c hn hl
    induction l with
    | nil => cases hl
    | cons a as ih =>
      rw [List.nodup_cons] at hn
      rw [List.map_cons, List.sum_cons]
      by_cases h : a = input
      · subst h
        rw [if_pos rfl]
        have : (as.map (fun f => if f = a then c else 0)).sum = 0 := by
          refine List.sum_eq_zero ?_
          intro x hx
          obtain ⟨f, hf, rfl⟩ := List.mem_map.mp hx
          rw [if_neg]
          rintro rfl
          exact hn.1 hf
        rw [this, add_zero]
      · rw [if_neg h, zero_add]
        exact ih hn.2 ((List.mem_cons.mp hl).resolve_left (Ne.symm h))
  exact hsum _ _ hg.distinct hi

/-! ### C79 -/

theorem averageData_eq {m : ModelDict ℝ} {val : Loc → ℝ} {t : ℕ} {output : String} {fn : TransFn} (hf : output ∈ allFactors m)
    (hu : TransFn.Usable (allFactors m) (fun name => val ⟨.transition, t, output, name⟩) fn) (nan : ℝ) (sd : List StateRow) (range : ℝ × ℝ) (input : String) (nPoints nDraws : ℕ) (draws : List ℕ)
    {points : List (ℝ × ℝ)} (h : averageData nan sd range t input output nPoints nDraws draws fn ((paramNamesOf (allFactors m) fn).map (fun name => val ⟨.transition, t, output, name⟩)) (allFactors m) = .ok points) :
    nDraws ≤ (sd.filter (fun r => r.period == t)).length ∧ ∃ rows, List.Forall₂ (fun k r => (sd.filter (fun r => r.period == t))[k]? = some r) draws rows ∧ draws ≠ [] ∧
      points.Pairwise (fun p q => p.1 < q.1) ∧ (∀ x, x ∈ points.map Prod.fst ↔ x ∈ linspace range.1 range.2 nPoints) ∧
      ∀ p ∈ points, p.2 = (rows.map (fun r => nextValue (allFactors m) (fun f => if f = input then p.1 else (r.values f).getD nan) (fun name => val ⟨.transition, t, output, name⟩) output fn)).sum / rows.length := by
  unfold averageData at h
  simp only [curve_eq hf hu] at h
  split_ifs at h with hlen
  refine ⟨by omega, ?_⟩
  rw [py_bind_ok] at h
  obtain ⟨blocks, hb, h⟩ := h
  rw [mapM_ok_iff] at hb
  split_ifs at h with hne
  have hp := Except.ok.inj h
  have hrows : ∃ rows, List.Forall₂ (fun k r => (sd.filter (fun r => r.period == t))[k]? = some r) draws rows ∧
      blocks = rows.map (fun r => curvePoints m val t input output fn (fun f => (r.values f).getD nan) (linspace range.1 range.2 nPoints)) := by
    clear h hp hne
    induction hb with
    | nil => exact ⟨[], .nil, rfl⟩
    | cons hab _ ih =>
      obtain ⟨rows, h1, h2⟩ := ih
      rw [py_bind_ok] at hab
      obtain ⟨r, hr, hab⟩ := hab
      rw [pyIndex_ok] at hr
      exact ⟨r :: rows, .cons hr h1, by rw [h2, List.map_cons, Except.ok.inj hab]⟩
  obtain ⟨rows, hrows, hblocks⟩ := hrows
  have hrne : rows ≠ [] := by
    rintro rfl
    exact hne (by rw [hblocks]; rfl)
  refine ⟨rows, hrows, ?_, ?_, ?_, ?_⟩
  · rintro rfl
    cases hrows
    exact hrne rfl
  · rw [← hp, List.pairwise_map]
    exact (groupKeys_spec _).1
  · intro x
    rw [← hp, List.map_map]
    show x ∈ List.map id _ ↔ _
    rw [List.map_id, (groupKeys_spec _).2, hblocks]
    obtain ⟨r, rs, rfl⟩ := List.exists_cons_of_ne_nil hrne
    constructor
    · intro hx
      obtain ⟨p, hp, rfl⟩ := List.mem_map.mp hx
      obtain ⟨b, hb, hpb⟩ := List.mem_flatten.mp hp
      obtain ⟨r', _, rfl⟩ := List.mem_map.mp hb
      have := (curvePoints_spec m val t input output fn (fun f => (r'.values f).getD nan) (linspace range.1 range.2 nPoints)).1
      rw [← this]
      exact List.mem_map.mpr ⟨p, hpb, rfl⟩
    · intro hx
      rw [List.map_cons, List.flatten_cons, List.map_append, (curvePoints_spec m val t input output fn _ _).1]
      exact List.mem_append_left _ hx
  · intro p hpm
    rw [← hp] at hpm
    obtain ⟨x, hx, rfl⟩ := List.mem_map.mp hpm
    rw [(groupKeys_spec _).2, hblocks] at hx
    have hx' : x ∈ linspace range.1 range.2 nPoints := by
      obtain ⟨p, hp, rfl⟩ := List.mem_map.mp hx
      obtain ⟨b, hb, hpb⟩ := List.mem_flatten.mp hp
      obtain ⟨r', _, rfl⟩ := List.mem_map.mp hb
      have := (curvePoints_spec m val t input output fn (fun f => (r'.values f).getD nan) (linspace range.1 range.2 nPoints)).1
      rw [← this]
      exact List.mem_map.mpr ⟨p, hpb, rfl⟩
    have hg := group_mean rows (fun r x => nextValue (allFactors m) (fun f => if f = input then x else (r.values f).getD nan) (fun name => val ⟨.transition, t, output, name⟩) output fn) _ hx'
    rw [hblocks, ← List.flatMap_def]
    exact hg

/-- **C79.** Suppose that get_transition_plots returns a dictionary and that the other factors are integrated out; `sample` has the positions of the drawn rows. Then the period has at least `nDraws` individuals.
The plot of (input, output) has one curve. Its points are ordered and their x-values are the evenly spaced numbers between the limits of the axis; the y-value is the average over the drawn individuals of the value of
the transition equation, where the input factor has the value x and the other factors have the values of the drawn individual. -/
theorem C79_averages {nan : ℝ} {sample : String → String → List Nat} {custom : String → CustomFn} {m : ModelDict ℝ} {params : List (Loc × ℝ)} {data : Option (LongData ℝ)}
    {states : List StateRow} {t : ℕ} {stateRanges : Option (Dict (List (Nat × ℝ × ℝ)))} {nPoints nDraws : ℕ} {plots : List ((String × String) × TransitionPlot)}
    (h : getTransitionPlots nan sample custom m params data states t stateRanges .none nPoints nDraws = .ok plots) (hg : GoodNames m) (hclash : NoNameClash m) {ids pers : List Int}
    (hstates : StatesOfData data ids pers states) {val : Loc → ℝ} (hv : ∀ l, IsParam m l → (l, val l) ∈ params)
    {input output : String} {spec : FactorSpec ℝ} (hi : input ∈ allFactors m) (hs : (output, spec) ∈ m.factors)
    (hu : TransFn.Usable (allFactors m) (fun name => val ⟨.transition, t, output, name⟩) (transFnOf (custom output) spec.transition)) :
    nDraws ≤ (states.filter (fun r => decide (r.period = t))).length ∧
    ∃ plot lo hi trace, ((input, output), plot) ∈ plots ∧ plot.xTitle = input ∧ plot.yTitle = output ∧ LimitsAre m data ids pers states t stateRanges input lo hi ∧
      plot.traces = [trace] ∧ trace.Pairwise (fun p q => p.1 < q.1) ∧ (∃ grid, grid.length = nPoints ∧ EvenlySpaced grid lo hi ∧ ∀ x, x ∈ trace.map Prod.fst ↔ x ∈ grid) ∧
      ∃ chosen : List (String → ℝ),
        List.Forall₂ (fun k others => ∃ r, (states.filter (fun r => decide (r.period = t)))[k]? = some r ∧
          ∀ f ∈ allFactors m, ∃ v, FactorValue m data ids pers r f v ∧ ∀ x, v = some x → others f = x) (sample input output) chosen ∧
        ∀ p ∈ trace, ∃ ys : List ℝ, List.Forall₂ (fun others y => OnCurve m val t input output (transFnOf (custom output) spec.transition) others (p.1, y)) chosen ys ∧ p.2 = ys.sum / ys.length := by
  obtain ⟨pm, sd, plot, range, hpm, ht, hsd, hmem, hx, hy, hr, htr⟩ := plot_of_pair h hg hv hi hs
  have hrows := statesData_rows hpm hg hclash hstates (isPeriod_pred ht) hsd
  have hfil : List.Forall₂ (MergedRow m data ids pers t) (states.filter (fun r => decide (r.period = t))) (sd.filter (fun r => r.period == t)) := by
    refine forall₂_filter hrows ?_
    intro r s hrs
    rw [hrs.1]
    rfl
  have hf : output ∈ allFactors m := List.mem_append_left _ (List.mem_map.mpr ⟨_, hs, rfl⟩)
  unfold plotTraces processQuantiles at htr
  simp only [] at htr
  rw [py_bind_ok] at htr
  obtain ⟨points, hpts, htr⟩ := htr
  obtain ⟨hlen, rows, hdraws, _, hsorted, hset, hval⟩ := averageData_eq hf hu _ _ _ _ _ _ _ hpts
  rw [← hfil.length_eq] at hlen
  refine ⟨hlen, plot, range.1, range.2, points, hmem, hx, hy, inputRange_limits hrows hi hr, (Except.ok.inj htr).symm, hsorted,
    ⟨_, linspace_length range.1 range.2 nPoints, linspace_even _ _ _, hset⟩, rows.map (fun r f => (r.values f).getD nan), ?_, ?_⟩
  · rw [List.forall₂_map_right_iff]
    refine hdraws.imp ?_
    intro k s hk
    obtain ⟨r, hr1, hr2⟩ : ∃ r, (states.filter (fun r => decide (r.period = t)))[k]? = some r ∧ MergedRow m data ids pers t r s := by
      have hk' := List.getElem?_eq_some_iff.mp hk
      obtain ⟨hkl, hks⟩ := hk'
      have hkl' : k < (states.filter (fun r => decide (r.period = t))).length := by rw [hfil.length_eq]; exact hkl
      refine ⟨_, List.getElem?_eq_getElem hkl', ?_⟩
      have := List.forall₂_iff_get.mp hfil
      have := this.2 k hkl' hkl
      rw [List.get_eq_getElem, List.get_eq_getElem, hks] at this
      exact this
    refine ⟨r, hr1, fun f hf' => ⟨s.values f, hr2.2 ?_ f hf', fun x hx => by show (s.values f).getD nan = x; rw [hx]; rfl⟩⟩
    have := List.mem_of_getElem? hr1
    simpa using (List.mem_filter.mp this).2
  · intro p hp
    refine ⟨rows.map (fun r => nextValue (allFactors m) (fun f => if f = input then p.1 else (r.values f).getD nan) (fun name => val ⟨.transition, t, output, name⟩) output (transFnOf (custom output) spec.transition)),
      ?_, (hval p hp).trans ?_⟩
    · rw [List.forall₂_map_left_iff, List.forall₂_map_right_iff, List.forall₂_same]
      intro r _
      rfl
    · rw [List.length_map]

/-! ### C78 -/

/-- The keys of the plots, in the order of the dictionary. -/
theorem plots_keys {nan : ℝ} {sample : String → String → List Nat} {custom : String → CustomFn} {m : ModelDict ℝ} {params : List (Loc × ℝ)} {data : Option (LongData ℝ)}
    {states : List StateRow} {t : ℕ} {stateRanges : Option (Dict (List (Nat × ℝ × ℝ)))} {arg : QuantileArg} {nPoints nDraws : ℕ} {plots : List ((String × String) × TransitionPlot)}
    (h : getTransitionPlots nan sample custom m params data states t stateRanges arg nPoints nDraws = .ok plots) :
    plots.map Prod.fst = ((m.factors.map Prod.fst).product (allFactors m)).map (fun oi => (oi.2, oi.1)) := by
  obtain ⟨_, sd, values, parsed, _, _, _, _, _, hall⟩ := getTransitionPlots_ok h
  clear h
  generalize (m.factors.map Prod.fst).product (allFactors m) = ps at hall ⊢
  induction hall with
  | nil => rfl
  | cons hab _ ih => rw [List.map_cons, List.map_cons, ih, hab.1]

theorem pairwise_idxOf {l : List String} (h : l.Nodup) : l.Pairwise (fun a b => l.idxOf a < l.idxOf b) := by
  rw [List.pairwise_iff_getElem]
  intro i j hi hj hij
  rw [h.idxOf_getElem, h.idxOf_getElem]
  exact hij

/-- The names in the blocks of a product. -/
theorem blocks_order (n : ℕ) {l : List String} (h : l.Nodup) :
    l.Pairwise (fun a b => (l.flatMap (fun o => List.replicate (n + 1) o)).idxOf a < (l.flatMap (fun o => List.replicate (n + 1) o)).idxOf b) := by
  have key : ∀ a ∈ l, (l.flatMap (fun o => List.replicate (n + 1) o)).idxOf a = (n + 1) * l.idxOf a := by
    induction l with
    | nil => intro a ha; cases ha
    | cons b bs ih =>
      intro a ha
      rw [List.nodup_cons] at h
      rw [List.flatMap_cons]
      by_cases hab : a = b
      · subst hab
        rw [List.idxOf_append_of_mem (by simp), List.replicate_succ, List.idxOf_cons_self, List.idxOf_cons_self, mul_zero]
      · have ha' := (List.mem_cons.mp ha).resolve_left hab
        rw [List.idxOf_append_of_notMem (by simp [hab]), ih h.2 a ha', List.length_replicate, List.idxOf_cons_ne _ (Ne.symm hab), Nat.succ_eq_add_one]
        ring
  refine (List.Pairwise.imp_of_mem ?_ (pairwise_idxOf h))
  intro a b ha hb hlt
  rw [key a ha, key b hb]
  exact Nat.mul_lt_mul_of_pos_left hlt (Nat.succ_pos n)

/-- **C60.** In the figure that is made of all plots of get_transition_plots, without orders, the columns are all factors and the rows are the latent factors, both in the order of the model. -/
theorem C60_default_orders {nan : ℝ} {sample : String → String → List Nat} {custom : String → CustomFn} {m : ModelDict ℝ} {params : List (Loc × ℝ)} {data : Option (LongData ℝ)}
    {states : List StateRow} {t : ℕ} {stateRanges : Option (Dict (List (Nat × ℝ × ℝ)))} {arg : QuantileArg} {nPoints nDraws : ℕ} {plots : List ((String × String) × TransitionPlot)}
    (h : getTransitionPlots nan sample custom m params data states t stateRanges arg nPoints nDraws = .ok plots) (hg : GoodNames m) (hne : m.factors ≠ []) :
    OrderIs .none (plots.map (fun p => p.1.1)) (allFactors m) ∧ OrderIs .none (plots.map (fun p => p.1.2)) (m.factors.map Prod.fst) := by
  have hkeys := plots_keys h
  have h1 : plots.map (fun p => p.1.1) = (m.factors.map Prod.fst).flatMap (fun _ => allFactors m) := by
    have := congrArg (List.map Prod.fst) hkeys
    rw [List.map_map, List.map_map] at this
    refine this.trans ?_
    unfold List.product
    rw [List.map_flatMap]
    congr 1
    funext o
    simp [Function.comp_def]
  have h2 : plots.map (fun p => p.1.2) = (m.factors.map Prod.fst).flatMap (fun o => List.replicate (allFactors m).length o) := by
    have := congrArg (List.map Prod.snd) hkeys
    rw [List.map_map, List.map_map] at this
    refine this.trans ?_
    unfold List.product
    rw [List.map_flatMap]
    congr 1
    funext o
    simp [Function.comp_def]
  obtain ⟨fs, fss, hfs⟩ := List.exists_cons_of_ne_nil hne
  rw [h1, h2]
  constructor
  · refine ⟨fun _ => ⟨fun s => ?_, ?_⟩, fun s h => (by cases h), fun s h => (by cases h)⟩
    · rw [List.mem_flatMap]
      exact ⟨fun hs => ⟨fs.1, by rw [hfs]; exact List.mem_cons_self, hs⟩, fun ⟨_, _, hs⟩ => hs⟩
    · refine (List.Pairwise.imp_of_mem ?_ (pairwise_idxOf hg.distinct))
      intro a b ha hb hlt
      rw [hfs, List.map_cons, List.flatMap_cons, List.idxOf_append_of_mem ha, List.idxOf_append_of_mem hb]
      exact hlt
  · have hlen : ∃ n, (allFactors m).length = n + 1 := by
      refine ⟨(allFactors m).length - 1, ?_⟩
      have : 0 < (allFactors m).length := List.length_pos_of_mem (List.mem_append_left _ (List.mem_map.mpr ⟨fs, by rw [hfs]; exact List.mem_cons_self, rfl⟩))
      omega
    obtain ⟨n, hn⟩ := hlen
    rw [hn]
    refine ⟨fun _ => ⟨fun s => ?_, blocks_order n hg.keys.factors⟩, fun s h => (by cases h), fun s h => (by cases h)⟩
    rw [List.mem_flatMap]
    constructor
    · intro hs
      exact ⟨s, hs, by simp⟩
    · rintro ⟨o, ho, hs⟩
      rw [List.eq_of_mem_replicate hs]
      exact ho

/-- **C78.** For a model that process_model accepts: if the period is the last one (or later) then the function raises a ValueError; otherwise the keys of the resulting dictionary are the pairs of a factor (input) and a
latent factor (output), each pair once. -/
theorem C78_keys (nan : ℝ) (sample : String → String → List Nat) (custom : String → CustomFn) {m : ModelDict ℝ} {pm : Processed ℝ} (hpm : processModel m = .ok pm) (hg : GoodNames m) (params : List (Loc × ℝ))
    (data : Option (LongData ℝ)) (states : List StateRow) (t : ℕ) (stateRanges : Option (Dict (List (Nat × ℝ × ℝ)))) (arg : QuantileArg) (nPoints nDraws : ℕ) :
    (¬IsPeriod m (t + 1) → IsPeriod m 0 → getTransitionPlots nan sample custom m params data states t stateRanges arg nPoints nDraws = .error .valueError) ∧
    ∀ plots, getTransitionPlots nan sample custom m params data states t stateRanges arg nPoints nDraws = .ok plots →
      (plots.map Prod.fst).Nodup ∧ ∀ input output, (input, output) ∈ plots.map Prod.fst ↔ input ∈ allFactors m ∧ IsLatent m output := by
  constructor
  · intro h h0
    unfold getTransitionPlots
    rw [hpm]
    show (checkPlotPeriod pm.labels.periods t >>= _) = _
    rw [(checkPlotPeriod_eq hpm t).2 h h0]
    rfl
  · intro plots h
    have hkeys := plots_keys h
    rw [hkeys]
    constructor
    · refine List.Nodup.map ?_ (List.Nodup.product hg.keys.factors hg.distinct)
      rintro ⟨a, b⟩ ⟨c, d⟩ hh
      simp only [Prod.mk.injEq] at hh ⊢
      exact ⟨hh.2, hh.1⟩
    · intro input output
      rw [List.mem_map]
      constructor
      · rintro ⟨⟨o, i⟩, hoi, hh⟩
        rw [List.pair_mem_product] at hoi
        simp only [Prod.mk.injEq] at hh
        obtain ⟨rfl, rfl⟩ := hh
        obtain ⟨fs, hfs, h1⟩ := List.mem_map.mp hoi.1
        exact ⟨hoi.2, fs.2, by rw [← h1]; exact hfs⟩
      · rintro ⟨h1, spec, h2⟩
        exact ⟨(output, input), List.pair_mem_product.mpr ⟨List.mem_map.mpr ⟨_, h2, rfl⟩, h1⟩, rfl⟩

/-- The states have a value of factor `f` in period `t`. -/
def HasValueInPeriod (m : ModelDict ℝ) (data : Option (LongData ℝ)) (ids pers : List Int) (states : List StateRow) (t : ℕ) (f : String) : Prop :=
  ∃ r ∈ states, r.period = t ∧ ∀ v, FactorValue m data ids pers r f v → v.isSome

theorem getStatesData_exists {m : ModelDict ℝ} {pm : Processed ℝ} (hpm : processModel m = .ok pm) (hg : GoodNames m) (hclash : NoNameClash m) {data : Option (LongData ℝ)} {ids pers : List Int}
    {states : List StateRow} (hstates : StatesOfData data ids pers states) {t : ℕ} (ht : IsPeriod m t)
    (hdata : m.observedFactors.getD [] ≠ [] → ∃ df, data = some df ∧ DataOk m df ids pers) : ∃ sd, getStatesData pm t data states = .ok sd := by
  unfold getStatesData
  rw [(labels_of_ok hpm).2.1]
  split_ifs with h0
  · exact ⟨_, rfl⟩
  · obtain ⟨df, rfl, hok⟩ := hdata h0
    obtain ⟨hi, hu, hids, hpers⟩ := hstates.index df rfl
    obtain ⟨out, hout⟩ := (C66_accepts_iff hpm hg.keys hclash hi hu hids hpers).mpr hok
    obtain ⟨_, _, _, _, ⟨hn, _⟩, _⟩ := C27_data_arrays hpm hg.keys hclash hi hu hids hpers hout
    obtain ⟨n, hn', htn⟩ := ht
    rw [IsNPeriods.unique hn' hn] at htn
    refine ⟨states.map (fun r => { r with values := mergedValue (m.observedFactors.getD []) t (out.observedFactors[t]) r }), ?_⟩
    simp only []
    rw [hout]
    show (pyIndex out.observedFactors t >>= _) = _
    have : pyIndex out.observedFactors t = .ok out.observedFactors[t] := by rw [pyIndex_ok, List.getElem?_eq_getElem htn]
    rw [this]
    rfl

/-- The plots exist if the traces can be computed. -/
theorem plots_exist_of (nan : ℝ) (sample : String → String → List Nat) (custom : String → CustomFn) {m : ModelDict ℝ} {pm : Processed ℝ} (hpm : processModel m = .ok pm) (hg : GoodNames m) (hclash : NoNameClash m)
    (hc : CleanAnchoring m) (hsafe : ∀ f, IsLatent m f → querySafe f) (hmix : ¬HasNMixtures m 0) {params : List (Loc × ℝ)} (hparams : (params.map Prod.fst).Nodup) {val : Loc → ℝ}
    (hv : ∀ l, IsParam m l → (l, val l) ∈ params) {data : Option (LongData ℝ)} {ids pers : List Int} {states : List StateRow} (hstates : StatesOfData data ids pers states)
    (hdata : m.observedFactors.getD [] ≠ [] → ∃ df, data = some df ∧ DataOk m df ids pers) {t : ℕ} (ht : IsPeriod m (t + 1))
    {stateRanges : Option (Dict (List (Nat × ℝ × ℝ)))}
    (hranges : (stateRanges = none ∧ ∀ f ∈ allFactors m, HasValueInPeriod m data ids pers states t f) ∨
      ∃ ranges, stateRanges = some ranges ∧ ∀ f ∈ allFactors m, ∃ table r, Dict.get? ranges f = some table ∧ table.lookup t = some r)
    {arg : QuantileArg} {nPoints nDraws : ℕ}
    (htraces : ∀ sd, List.Forall₂ (MergedRow m data ids pers t) states sd → ∀ input ∈ allFactors m, ∀ output spec, (output, spec) ∈ m.factors → ∀ range, ∃ traces,
      plotTraces nan (sample input output) sd range t nPoints nDraws input output (transFnOf (custom output) spec.transition)
        ((paramNamesOf (allFactors m) (transFnOf (custom output) spec.transition)).map (fun name => val ⟨.transition, t, output, name⟩)) (allFactors m) (processQuantiles arg) = .ok traces) :
    ∃ plots, getTransitionPlots nan sample custom m params data states t stateRanges arg nPoints nDraws = .ok plots := by
  obtain ⟨sd, hsd⟩ := getStatesData_exists hpm hg hclash hstates (isPeriod_pred ht) hdata
  have hrows := statesData_rows hpm hg hclash hstates (isPeriod_pred ht) hsd
  have hvalues : setIndexParams nan params pm.paramsIndex = .ok (pm.paramsIndex.map val) := by
    unfold setIndexParams
    rw [if_pos hparams]
    congr 1
    refine List.map_congr_left (fun l hl => ?_)
    rw [lookup_of_mem hparams (hv l ((mem_paramsIndex_iff hpm l).mp hl))]
    rfl
  have h1 : IsPeriod m 1 := by
    obtain ⟨n, hn, htn⟩ := ht
    exact ⟨n, hn, by omega⟩
  obtain ⟨parsed, hparsed⟩ := C64_parse_succeeds_partial hpm hg hc hsafe h1 hmix Real.log 1 (pm.paramsIndex.map val) (by simp)
  have hrange : ∀ f ∈ allFactors m, ∃ range, inputRange stateRanges sd f t = .ok range := by
    intro f hf
    rcases hranges with ⟨rfl, hval⟩ | ⟨ranges, rfl, hval⟩
    · refine inputRange_exists ?_
      obtain ⟨r, hr, hrt, hsome⟩ := hval f hf
      obtain ⟨s, hs, hrs⟩ := forall₂_mem hrows hr
      obtain ⟨x, hx⟩ := Option.isSome_iff_exists.mp (hsome _ (hrs.2 hrt f hf))
      refine List.ne_nil_of_mem (a := x) ?_
      unfold periodValues
      rw [List.mem_filterMap]
      exact ⟨s, List.mem_filter.mpr ⟨hs, by rw [beq_iff_eq, hrs.1, hrt]⟩, hx⟩
    · obtain ⟨table, r, h2, h3⟩ := hval f hf
      refine ⟨r, ?_⟩
      unfold inputRange stateRangeTable Dict.getItem
      simp only [h2]
      show (List.lookup t table).elim _ _ = _
      rw [h3]
      rfl
  have hone : ∀ oi ∈ (m.factors.map Prod.fst).product (allFactors m), ∃ kp, (do
      let plot ← oneTransitionPlot nan sample (transitionFns custom m) (allFactors m) parsed.transition stateRanges sd (processQuantiles arg) t nPoints nDraws oi.1 oi.2
      pure ((oi.2, oi.1), plot) : Py ((String × String) × TransitionPlot)) = .ok kp := by
    rintro ⟨output, input⟩ hoi
    rw [List.pair_mem_product] at hoi
    obtain ⟨⟨o, spec⟩, hs, ho⟩ := List.mem_map.mp hoi.1
    obtain rfl : o = output := ho
    obtain ⟨range, hr⟩ := hrange input hoi.2
    rw [oneTransitionPlot_eq hpm hg hparsed custom hs ht, hr]
    obtain ⟨traces, htr⟩ := htraces sd hrows input hoi.2 o spec hs range
    refine ⟨((input, o), { traces := traces, xTitle := input, yTitle := o }), ?_⟩
    rw [py_bind_ok]
    refine ⟨_, ?_, rfl⟩
    rw [py_bind_ok]
    refine ⟨range, rfl, ?_⟩
    rw [py_bind_ok]
    exact ⟨traces, htr, rfl⟩
  obtain ⟨plots, hplots⟩ := mapM_exists hone
  refine ⟨plots, ?_⟩
  unfold getTransitionPlots
  rw [hpm]
  show (checkPlotPeriod pm.labels.periods t >>= _) = _
  rw [(checkPlotPeriod_eq hpm t).1 ht]
  show (getStatesData pm t data states >>= _) = _
  rw [hsd]
  show (setIndexParams nan params pm.paramsIndex >>= _) = _
  rw [hvalues]
  show (pm.parse Real.log (pm.paramsIndex.map val) 1 >>= _) = _
  rw [hparsed, (labels_of_ok hpm).1, (labels_of_ok hpm).2.2.2.2.1]
  exact hplots

/-- **C78.** Conditions under which the plots with fixed quantiles exist: the period is not the last one; all parameters have a value and a label occurs only once; the data are a valid dataset if there are observed factors;
every factor has a value in the period (or the limits of the axes are given); the quantiles are between 0 and 1; the transition functions can be evaluated. -/
theorem C78_plots_exist (nan : ℝ) (sample : String → String → List Nat) (custom : String → CustomFn) {m : ModelDict ℝ} {pm : Processed ℝ} (hpm : processModel m = .ok pm) (hg : GoodNames m) (hclash : NoNameClash m)
    (hc : CleanAnchoring m) (hsafe : ∀ f, IsLatent m f → querySafe f) (hmix : ¬HasNMixtures m 0) {params : List (Loc × ℝ)} (hparams : (params.map Prod.fst).Nodup) {val : Loc → ℝ}
    (hv : ∀ l, IsParam m l → (l, val l) ∈ params) {data : Option (LongData ℝ)} {ids pers : List Int} {states : List StateRow} (hstates : StatesOfData data ids pers states)
    (hdata : m.observedFactors.getD [] ≠ [] → ∃ df, data = some df ∧ DataOk m df ids pers) {t : ℕ} (ht : IsPeriod m (t + 1))
    {stateRanges : Option (Dict (List (Nat × ℝ × ℝ)))}
    (hranges : (stateRanges = none ∧ ∀ f ∈ allFactors m, HasValueInPeriod m data ids pers states t f) ∨
      ∃ ranges, stateRanges = some ranges ∧ ∀ f ∈ allFactors m, ∃ table r, Dict.get? ranges f = some table ∧ table.lookup t = some r)
    {arg : QuantileArg} {qs : List ℝ} (hq : AsksFor arg qs) (hne : qs ≠ []) (h01 : ∀ q ∈ qs, 0 ≤ q ∧ q ≤ 1) (nPoints nDraws : ℕ)
    (hu : ∀ output spec, (output, spec) ∈ m.factors → TransFn.Usable (allFactors m) (fun name => val ⟨.transition, t, output, name⟩) (transFnOf (custom output) spec.transition)) :
    ∃ plots, getTransitionPlots nan sample custom m params data states t stateRanges arg nPoints nDraws = .ok plots := by
  refine plots_exist_of nan sample custom hpm hg hclash hc hsafe hmix hparams hv hstates hdata ht hranges ?_
  intro sd _ input _ output spec hs range
  rw [processQuantiles_asks hq]
  unfold plotTraces
  simp only []
  rw [fixedQuantileData_eq (List.mem_append_left _ (List.mem_map.mpr ⟨_, hs, rfl⟩)) (hu _ _ hs), if_pos ⟨hne, h01⟩]
  exact ⟨_, rfl⟩

/-- **C79.** Conditions under which the plots with averages exist: as in C78, and there are enough individuals in the period; `sample` has at least one row of the period. -/
theorem C79_plots_exist (nan : ℝ) (sample : String → String → List Nat) (custom : String → CustomFn) {m : ModelDict ℝ} {pm : Processed ℝ} (hpm : processModel m = .ok pm) (hg : GoodNames m) (hclash : NoNameClash m)
    (hc : CleanAnchoring m) (hsafe : ∀ f, IsLatent m f → querySafe f) (hmix : ¬HasNMixtures m 0) {params : List (Loc × ℝ)} (hparams : (params.map Prod.fst).Nodup) {val : Loc → ℝ}
    (hv : ∀ l, IsParam m l → (l, val l) ∈ params) {data : Option (LongData ℝ)} {ids pers : List Int} {states : List StateRow} (hstates : StatesOfData data ids pers states)
    (hdata : m.observedFactors.getD [] ≠ [] → ∃ df, data = some df ∧ DataOk m df ids pers) {t : ℕ} (ht : IsPeriod m (t + 1))
    {stateRanges : Option (Dict (List (Nat × ℝ × ℝ)))}
    (hranges : (stateRanges = none ∧ ∀ f ∈ allFactors m, HasValueInPeriod m data ids pers states t f) ∨
      ∃ ranges, stateRanges = some ranges ∧ ∀ f ∈ allFactors m, ∃ table r, Dict.get? ranges f = some table ∧ table.lookup t = some r)
    (nPoints nDraws : ℕ) (hn : nDraws ≤ (states.filter (fun r => decide (r.period = t))).length)
    (hsample : ∀ input output, sample input output ≠ [] ∧ ∀ k ∈ sample input output, k < (states.filter (fun r => decide (r.period = t))).length)
    (hu : ∀ output spec, (output, spec) ∈ m.factors → TransFn.Usable (allFactors m) (fun name => val ⟨.transition, t, output, name⟩) (transFnOf (custom output) spec.transition)) :
    ∃ plots, getTransitionPlots nan sample custom m params data states t stateRanges .none nPoints nDraws = .ok plots := by
  refine plots_exist_of nan sample custom hpm hg hclash hc hsafe hmix hparams hv hstates hdata ht hranges ?_
  intro sd hrows input _ output spec hs range
  have hfil : List.Forall₂ (MergedRow m data ids pers t) (states.filter (fun r => decide (r.period = t))) (sd.filter (fun r => r.period == t)) := by
    refine forall₂_filter hrows ?_
    intro r s hrs
    rw [hrs.1]
    rfl
  unfold plotTraces processQuantiles averageData
  simp only [curve_eq (List.mem_append_left _ (List.mem_map.mpr ⟨_, hs, rfl⟩)) (hu _ _ hs)]
  rw [if_neg (by rw [← hfil.length_eq]; omega)]
  have hblocks : ∃ blocks, (sample input output).mapM (m := Py) (fun k => do
      let draw ← pyIndex (sd.filter (fun r => r.period == t)) k
      .ok (curvePoints m val t input output (transFnOf (custom output) spec.transition) (fun f => (draw.values f).getD nan) (linspace range.1 range.2 nPoints))) = .ok blocks := by
    refine mapM_exists (fun k hk => ?_)
    have hk' := (hsample input output).2 k hk
    rw [hfil.length_eq] at hk'
    refine ⟨_, py_bind_ok.mpr ⟨_, pyIndex_ok.mpr (List.getElem?_eq_getElem hk'), rfl⟩⟩
  obtain ⟨blocks, hb⟩ := hblocks
  have hlen := ((mapM_ok_iff _ _ _).mp hb).length_eq
  rw [hb]
  have hne : blocks ≠ [] := by
    rintro rfl
    exact (hsample input output).1 (List.eq_nil_of_length_eq_zero hlen)
  simp only [bind, Except.bind, if_neg hne, pure, Except.pure]
  exact ⟨_, rfl⟩

/-- **C79.** If fewer individuals are observed in the period than the number of draws then the plots with averages cannot be made: the function does not return. -/
theorem C79_too_few_individuals {nan : ℝ} {sample : String → String → List Nat} {custom : String → CustomFn} {m : ModelDict ℝ} {params : List (Loc × ℝ)} {data : Option (LongData ℝ)}
    {states : List StateRow} {t : ℕ} {stateRanges : Option (Dict (List (Nat × ℝ × ℝ)))} {nPoints nDraws : ℕ} (hg : GoodNames m) (hclash : NoNameClash m) {ids pers : List Int}
    (hstates : StatesOfData data ids pers states) {val : Loc → ℝ} (hv : ∀ l, IsParam m l → (l, val l) ∈ params)
    (hfactors : ∃ output spec, (output, spec) ∈ m.factors ∧ TransFn.Usable (allFactors m) (fun name => val ⟨.transition, t, output, name⟩) (transFnOf (custom output) spec.transition))
    (hfew : (states.filter (fun r => decide (r.period = t))).length < nDraws) :
    ∀ plots, getTransitionPlots nan sample custom m params data states t stateRanges .none nPoints nDraws ≠ .ok plots := by
  intro plots h
  obtain ⟨output, spec, hs, hu⟩ := hfactors
  have := (C79_averages h hg hclash hstates hv (List.mem_append_left _ (List.mem_map.mpr ⟨_, hs, rfl⟩)) hs hu).1
  omega

end Skill
