import Verif.Lemmas.DistributionPlots
import Verif.Props.CombinePlots
/-
C80-C84: plots of the distribution of factors.
-/
namespace Skill
open Spec Matrix

theorem plottedFactors_eq {m : ModelDict ℝ} {pm : Processed ℝ} (hpm : processModel m = .ok pm) {arg : Option (List String)} {observedFactors : Bool} {fs : List String} (h : PlottedFactors m arg observedFactors fs) :
    getPlotFactors pm.labels arg observedFactors = fs := by
  obtain ⟨h1, _, _, _, h2, _⟩ := labels_of_ok hpm
  rcases h with rfl | ⟨rfl, rfl⟩
  · rfl
  · cases observedFactors
    · exact h1
    · exact h2

theorem noObserved {data : LongData ℝ} {fs : List String} (h : ∀ f ∈ fs, f ∉ data.columns) : getDataObservedFactors data fs = none := by
  have : fs.filter (fun f => decide (f ∈ data.columns)) = [] := by
    rw [List.filter_eq_nil_iff]
    intro f hf
    simp [h f hf]
  unfold getDataObservedFactors
  rw [this]

theorem mem_factorPairs (fs : List String) (pair : String × String) : pair ∈ factorPairs fs ↔ pair.1 ∈ fs ∧ pair.2 ∈ fs ∧ pair.1 ≠ pair.2 := by
  unfold factorPairs
  obtain ⟨a, b⟩ := pair
  rw [List.mem_dedup, List.mem_filter, decide_eq_true_iff]
  show (a, b) ∈ fs ×ˢ fs ∧ _ ↔ _
  rw [List.mem_product, and_assoc]

/-- The plotted data if only factors in the states are plotted. -/
theorem processPlotData_states {data : LongData ℝ} {states : PlotStatesArg} {t : ℕ} {fs : List String} (hne : fs ≠ []) (hs : scenariosOf states ≠ [])
    (hcols : ∀ f ∈ fs, f ∉ data.columns ∧ ∀ s ∈ scenariosOf states, f ∈ s.2.columns) :
    processPlotData states t fs (getDataObservedFactors data fs) = .ok { columns := fs, rows := (scenariosOf states).flatMap (scenarioBlock t) } := by
  unfold processPlotData
  rw [noObserved (fun f hf => (hcols f hf).1), plotStatesFrame_ok hne hs (fun s hs f hf => (hcols f hf).2 s hs)]
  rfl

/-! ### C80 -/

/-- **C80** (part). Let `fs` be the plotted factors; all of them are latent factors with columns in the states. The contour plots have one entry for each pair of different factors. If the values of both factors are known and
not on one line in each of the scenarios then the plot has one trace for each scenario. The grid of each trace is evenly spaced between the smallest and largest value of the two factors; on the diagonal of the
grid, the density estimate is shown.
Missing: the other points of the grid, where the plot shows the density of the point with the opposite indices (`C80_transposed`, `C80_counterexample`). -/
theorem C80_contours_partial {m : ModelDict ℝ} {pm : Processed ℝ} (hpm : processModel m = .ok pm) {data : LongData ℝ} {states : PlotStatesArg} {t : ℕ} {arg : Option (List String)} {observedFactors : Bool} {fs : List String}
    (hfs : PlottedFactors m arg observedFactors fs) (hne : fs ≠ []) (hs : scenariosOf states ≠ []) (hn : ((scenariosOf states).map Prod.fst).Nodup)
    (hcols : ∀ f ∈ fs, f ∉ data.columns ∧ ∀ s ∈ scenariosOf states, f ∈ s.2.columns) (nPoints nColors : ℕ) (hcolors : (scenariosOf states).length ≤ nColors) :
    ∃ plots, bivariateDensityContours pm.labels data states t arg observedFactors nPoints nColors = .ok plots ∧ (plots.map Prod.fst).Nodup ∧
      (∀ pair, pair ∈ plots.map Prod.fst ↔ pair.1 ∈ fs ∧ pair.2 ∈ fs ∧ pair.1 ≠ pair.2) ∧
      ∀ pair plot, (pair, plot) ∈ plots → plot.xTitle = pair.1 ∧ plot.yTitle = pair.2 ∧
        ∀ samples, List.Forall₂ (fun s ps => SampleIs s.2.rows t pair ps ∧ NotDegenerate ps) (scenariosOf states) samples →
          List.Forall₂ (fun ps trace => GridOf (ps.map (fun p => p 0)) nPoints trace.x ∧ GridOf (ps.map (fun p => p 1)) nPoints trace.y ∧
            (∀ (i : ℕ) x y, trace.x[i]? = some x → trace.y[i]? = some y → entry2 trace.z i i = some (kernelDensity ps ![x, y])) ∧
            trace.z = trace.x.map (fun x => trace.y.map (fun y => kernelDensity ps ![x, y]))) samples plot.traces := by
  refine ⟨(factorPairs fs).map (fun pair => (pair, contourPlot { columns := fs, rows := (scenariosOf states).flatMap (scenarioBlock t) } nPoints nColors pair)), ?_, ?_, ?_, ?_⟩
  · unfold bivariateDensityContours
    simp only [plottedFactors_eq hpm hfs]
    rw [processPlotData_states hne hs hcols]
    rfl
  · rw [List.map_map]
    show ((factorPairs fs).map id).Nodup
    rw [List.map_id]
    exact List.nodup_dedup _
  · intro pair
    rw [List.map_map]
    show pair ∈ (factorPairs fs).map id ↔ _
    rw [List.map_id]
    exact mem_factorPairs fs pair
  · intro pair plot hmem
    obtain ⟨pair', hp, hh⟩ := List.mem_map.mp hmem
    simp only [Prod.mk.injEq] at hh
    obtain ⟨rfl, rfl⟩ := hh
    refine ⟨rfl, rfl, ?_⟩
    intro samples hsamples
    have hpair := (mem_factorPairs fs pair').mp hp
    have hblocks : ∀ s ∈ scenariosOf states, scenarioBlock t s ≠ [] := by
      intro s hs' h0
      obtain ⟨ps, hps, h1, h2⟩ := forall₂_mem hsamples hs'
      have := (sample_pairValues h1)
      rw [h0] at this
      cases this
      exact notDegenerate_ne h2 rfl
    unfold contourPlot
    simp only []
    rw [plotScenarios_eq hn hblocks]
    have key : ∀ (sc : List (String × PlotStatesFrame)) (samples : List (List (Fin 2 → ℝ))) (k : ℕ), (∀ s ∈ sc, s ∈ scenariosOf states) → k + sc.length ≤ nColors →
        List.Forall₂ (fun s ps => SampleIs s.2.rows t pair' ps ∧ NotDegenerate ps) sc samples →
        List.Forall₂ (fun ps trace => GridOf (ps.map (fun p => p 0)) nPoints trace.x ∧ GridOf (ps.map (fun p => p 1)) nPoints trace.y ∧
            (∀ (i : ℕ) x y, trace.x[i]? = some x → trace.y[i]? = some y → entry2 trace.z i i = some (kernelDensity ps ![x, y])) ∧
            trace.z = trace.x.map (fun x => trace.y.map (fun y => kernelDensity ps ![x, y]))) samples
          (((sc.map (fun s => some s.1)).zipIdx k).filterMap (contourOf { columns := fs, rows := (scenariosOf states).flatMap (scenarioBlock t) } nPoints nColors pair')) := by
      intro sc samples k hsub hk h
      induction h generalizing k with
      | nil => exact .nil
      | cons hab hrest ih =>
        rename_i s ps sc samples
        obtain ⟨g, hg, h1, h2, h3⟩ := (calculateKde_spec (columns := fs) ⟨hpair.1, hpair.2.1⟩ (sample_pairValues hab.1) nPoints).1 hab.2
        rw [List.map_cons, List.zipIdx_cons]
        have hhead : contourOf { columns := fs, rows := (scenariosOf states).flatMap (scenarioBlock t) } nPoints nColors pair' (some s.1, k) = some { x := g.xs, y := g.ys, z := g.zz } := by
          unfold contourOf
          simp only []
          rw [scenarioRows_eq hn (hsub s List.mem_cons_self), hg, Option.bind_some, if_pos (by rw [List.length_cons] at hk; omega)]
        rw [List.filterMap_cons_some hhead]
        refine .cons ⟨h1, h2, ?_, h3⟩ (ih (k + 1) (fun s hs => hsub s (List.mem_cons_of_mem _ hs)) (by rw [List.length_cons] at hk; omega))
        intro i x y hx hy
        show entry2 g.zz i i = _
        rw [h3]
        exact zz_entry hx hy
    exact key _ _ 0 (fun s hs => hs) (by omega) hsamples

/-- **C80.** What contour plots show in fact: at the point (x[j], y[i]) of the grid they show the density estimate at the point (x[i], y[j]). -/
theorem C80_transposed {ps : List (Fin 2 → ℝ)} {trace : ContourTrace} (h : trace.z = trace.x.map (fun x => trace.y.map (fun y => kernelDensity ps ![x, y]))) {i j : ℕ} {x x' y y' : ℝ}
    (hi : trace.x[i]? = some x') (hj : trace.x[j]? = some x) (hi' : trace.y[i]? = some y) (hj' : trace.y[j]? = some y') : ContourShows trace x y (kernelDensity ps ![x', y']) := by
  refine ⟨i, j, hj, hi', ?_⟩
  rw [h]
  exact zz_entry hi hj'

/-! ### C81 -/

theorem surfacePlot_spec {df : PlotFrame} {pair : String × String} {ps : List (Fin 2 → ℝ)} (hc : pair.1 ∈ df.columns ∧ pair.2 ∈ df.columns) (h : PairValues df.rows pair ps) (n : ℕ) :
    (NotDegenerate ps → SurfaceOf (surfacePlot df n pair) ps n) ∧ (¬NotDegenerate ps → (surfacePlot df n pair).traces = []) := by
  obtain ⟨k1, k2⟩ := calculateKde_spec hc h n
  constructor
  · intro hd
    obtain ⟨g, hg, h1, h2, h3⟩ := k1 hd
    refine ⟨{ x := g.xs.map (fun x => g.ys.map (fun _ => x)), y := g.xs.map (fun _ => g.ys), z := g.zz }, g.xs, g.ys, ?_, h1, h2, ?_⟩
    · unfold surfacePlot
      rw [hg]
      rfl
    · intro px py v
      have ey : g.xs.map (fun _ => g.ys) = g.xs.map (fun _ => g.ys.map (fun y => y)) := by simp
      constructor
      · rintro ⟨i, j, hx, hy, hz⟩
        simp only [entry2, List.getElem?_map] at hx hy
        cases hi : g.xs[i]? with
        | none => simp [hi] at hx
        | some x =>
          cases hj : g.ys[j]? with
          | none => simp [hi, hj] at hy
          | some y =>
            simp only [hi, hj, Option.map_some, Option.bind_some, List.getElem?_map, Option.some.injEq] at hx hy
            subst hx hy
            simp only [h3] at hz
            rw [zz_entry hi hj] at hz
            exact ⟨List.mem_of_getElem? hi, List.mem_of_getElem? hj, (Option.some.inj hz).symm⟩
      · rintro ⟨hx, hy, rfl⟩
        obtain ⟨i, hi⟩ := List.mem_iff_getElem?.mp hx
        obtain ⟨j, hj⟩ := List.mem_iff_getElem?.mp hy
        refine ⟨i, j, zz_entry (F := fun x _ => x) hi hj, ?_, ?_⟩
        · rw [ey]
          exact zz_entry (F := fun _ y => y) hi hj
        · simp only [h3]
          exact zz_entry hi hj
  · intro hd
    unfold surfacePlot
    rw [k2 hd]
    rfl

/-- **C81.** Let `fs` be the plotted factors; all of them are latent factors with columns in the states. The surface plots have one entry for each pair of different factors. If the values of both factors are
known and not on one line then the plot shows exactly the kernel density estimate, on an evenly spaced grid between the smallest and largest values. If a value is missing or the values are on one line then
the plot is empty. -/
theorem C81_surfaces {m : ModelDict ℝ} {pm : Processed ℝ} (hpm : processModel m = .ok pm) {data : LongData ℝ} {df : PlotStatesFrame} {t : ℕ} {arg : Option (List String)} {observedFactors : Bool} {fs : List String}
    (hfs : PlottedFactors m arg observedFactors fs) (hne : fs ≠ []) (hcols : ∀ f ∈ fs, f ∉ data.columns ∧ f ∈ df.columns) (nPoints : ℕ) :
    ∃ plots, bivariateDensitySurfaces pm.labels data (.frame df) t arg observedFactors nPoints = .ok plots ∧ (plots.map Prod.fst).Nodup ∧
      (∀ pair, pair ∈ plots.map Prod.fst ↔ pair.1 ∈ fs ∧ pair.2 ∈ fs ∧ pair.1 ≠ pair.2) ∧
      ∀ pair plot, (pair, plot) ∈ plots → plot.xTitle = pair.1 ∧ plot.yTitle = pair.2 ∧
        (∀ ps, SampleIs df.rows t pair ps → (NotDegenerate ps → SurfaceOf plot ps nPoints) ∧ (¬NotDegenerate ps → plot.traces = [])) ∧
        ((∃ r ∈ df.rows, r.period = t ∧ (r.values pair.1 = none ∨ r.values pair.2 = none)) → plot.traces = []) := by
  refine ⟨(factorPairs fs).map (fun pair => (pair, surfacePlot { columns := fs, rows := scenarioBlock t ("none", df) } nPoints pair)), ?_, ?_, ?_, ?_⟩
  · unfold bivariateDensitySurfaces
    simp only [plottedFactors_eq hpm hfs]
    rw [processPlotData_states (states := .frame df) hne (by simp [scenariosOf]) (fun f hf => ⟨(hcols f hf).1, fun s hs => by
      rw [List.mem_singleton.mp hs]
      exact (hcols f hf).2⟩)]
    simp only [scenariosOf, List.flatMap_cons, List.flatMap_nil, List.append_nil]
    rfl
  · rw [List.map_map]
    show ((factorPairs fs).map id).Nodup
    rw [List.map_id]
    exact List.nodup_dedup _
  · intro pair
    rw [List.map_map]
    show pair ∈ (factorPairs fs).map id ↔ _
    rw [List.map_id]
    exact mem_factorPairs fs pair
  · intro pair plot hmem
    obtain ⟨pair', hp, hh⟩ := List.mem_map.mp hmem
    simp only [Prod.mk.injEq] at hh
    obtain ⟨rfl, rfl⟩ := hh
    have hpair := (mem_factorPairs fs pair').mp hp
    refine ⟨rfl, rfl, fun ps hps => surfacePlot_spec ⟨hpair.1, hpair.2.1⟩ (sample_pairValues (s := ("none", df)) hps) nPoints, ?_⟩
    rintro ⟨r, hr, hrt, hv⟩
    unfold surfacePlot
    have hmiss : ∃ x ∈ scenarioBlock t ("none", df), x.value pair'.1 = none ∨ x.value pair'.2 = none :=
      ⟨⟨some "none", r.values⟩, List.mem_map.mpr ⟨r, List.mem_filter.mpr ⟨hr, by simp [hrt]⟩, rfl⟩, hv⟩
    simp only []
    rw [calculateKde_missing hmiss]
    rfl

/-- **C81.** Surface plots of several scenarios are rejected. -/
theorem C81_only_frames (labels : Labels) (data : LongData ℝ) (dfs : List (String × PlotStatesFrame)) (t : ℕ) (arg : Option (List String)) (observedFactors : Bool) (nPoints : ℕ) :
    bivariateDensitySurfaces labels data (.scenarios dfs) t arg observedFactors nPoints = .error .valueError := rfl

/-! ### C82 -/

/-- The data that are plotted if there is one observed factor. -/
def jointFrame (data : LongData ℝ) (df : PlotStatesFrame) (t : ℕ) (fs : List String) (o : String) : PlotFrame :=
  besideObserved { columns := fs.filter (fun f => decide (f ≠ o)), rows := scenarioBlock t ("none", df) } { column := some o, rows := data.rows.map (fun r => (r.period, r.cell o)) } t

theorem processPlotData_joint {data : LongData ℝ} {df : PlotStatesFrame} {t : ℕ} {fs : List String} {o : String} (hobs : fs.filter (fun f => decide (f ∈ data.columns)) = [o])
    (hcols : ∀ f ∈ fs, f ≠ o ↔ f ∈ df.columns) (hlat : ∃ f ∈ fs, f ≠ o) : processPlotData (.frame df) t fs (getDataObservedFactors data fs) = .ok (jointFrame data df t fs o) := by
  have h1 : getDataObservedFactors data fs = some { column := some o, rows := data.rows.map (fun r => (r.period, r.cell o)) } := by
    unfold getDataObservedFactors
    rw [hobs]
    simp
  have h2 : fs.filter (fun f => decide (f ∈ df.columns)) = fs.filter (fun f => decide (f ≠ o)) := by
    refine List.filter_congr (fun f hf => ?_)
    exact decide_eq_decide.mpr (hcols f hf).symm
  have h3 : fs.filter (fun f => decide (f ≠ o)) ≠ [] := by
    obtain ⟨f, hf, hne⟩ := hlat
    exact List.ne_nil_of_mem (List.mem_filter.mpr ⟨hf, decide_eq_true hne⟩)
  unfold processPlotData plotStatesFrame
  simp only [h2, if_neg h3]
  rw [h1]
  rfl

theorem jointFrame_columns {data : LongData ℝ} {df : PlotStatesFrame} {t : ℕ} {fs : List String} {o : String} {f : String} (hf : f ∈ fs) : f ∈ (jointFrame data df t fs o).columns := by
  by_cases h : f = o
  · subst h
    exact List.mem_append_right _ (by simp)
  · exact List.mem_append_left _ (List.mem_filter.mpr ⟨hf, decide_eq_true h⟩)

/-- The rows if the states and the data have the same number of rows. -/
theorem jointFrame_rows {data : LongData ℝ} {df : PlotStatesFrame} {t : ℕ} {fs : List String} {o : String}
    (hlen : (df.rows.filter (fun r => decide (r.period = t))).length = (data.rows.filter (fun r => decide (r.period = (t : ℤ)))).length) :
    (jointFrame data df t fs o).rows = ((df.rows.filter (fun r => decide (r.period = t))).zip (data.rows.filter (fun r => decide (r.period = (t : ℤ))))).map
      (fun rr => { scenario := some "none", value := fun f => if f = o then rr.2.cell o else rr.1.values f }) := by
  have hvals : ((data.rows.map (fun r => (r.period, r.cell o))).filter (fun pv => pv.1 == (t : ℤ))).map Prod.snd = (data.rows.filter (fun r => decide (r.period = (t : ℤ)))).map (fun r => r.cell o) := by
    rw [List.filter_map, List.map_map]
    rfl
  have hblock : scenarioBlock t ("none", df) = (df.rows.filter (fun r => decide (r.period = t))).map (fun r => { scenario := some "none", value := r.values }) := rfl
  unfold jointFrame besideObserved
  simp only [hvals, hblock, List.length_map, hlen, max_self]
  generalize hA : df.rows.filter (fun r => decide (r.period = t)) = A at hlen ⊢
  generalize hB : data.rows.filter (fun r => decide (r.period = (t : ℤ))) = B at hlen ⊢
  refine List.ext_getElem (by simp [hlen]) ?_
  intro k h1 h2
  rw [List.length_map, List.length_range] at h1
  rw [List.getElem_map, List.getElem_map, List.getElem_range, List.getElem_zip]
  have hk : k < A.length := by omega
  simp only [List.getElem?_map, List.getElem?_eq_getElem hk, List.getElem?_eq_getElem h1, Option.map_some, Option.bind_some, Option.join_some]
  congr 1
  funext f
  by_cases hfo : f = o
  · subst hfo; simp
  · simp [hfo, Ne.symm hfo]

theorem uniqueRow {data : LongData ℝ} (hu : UniqueKeys data) {ids pers : List ℤ} {i t : ℕ} {a b : LongRow ℝ} (ha : RowOf data ids pers i t (some a)) (hb : RowOf data ids pers i t (some b)) : a = b := by
  refine List.inj_on_of_nodup_map hu ha.1 hb.1 ?_
  rw [Prod.mk.injEq]
  exact ⟨Option.some.inj (ha.2.1.symm.trans hb.2.1), Option.some.inj (ha.2.2.symm.trans hb.2.2)⟩

theorem joint_pairValues {data : LongData ℝ} {ids pers : List ℤ} {df : PlotStatesFrame} {t : ℕ} {fs : List String} {o : String} (hu : UniqueKeys data) (hin : InOrder data ids pers df.rows t) {pair : String × String}
    {ps : List (Fin 2 → ℝ)} (hps : JointSample data ids pers o df.rows t pair ps) : PairValues (jointFrame data df t fs o).rows pair ps := by
  unfold PairValues
  rw [jointFrame_rows hin.length_eq, List.forall₂_map_left_iff]
  unfold InOrder at hin
  unfold JointSample at hps
  have hper : ∀ r ∈ df.rows.filter (fun r => decide (r.period = t)), r.period = t := fun r hr => of_decide_eq_true (List.mem_filter.mp hr).2
  generalize df.rows.filter (fun r => decide (r.period = t)) = A at hin hps hper ⊢
  generalize data.rows.filter (fun r => decide (r.period = (t : ℤ))) = B at hin ⊢
  induction hin generalizing ps with
  | nil => cases hps; exact .nil
  | cons hab hrest ih =>
    rename_i r row A B
    cases hps with
    | cons hp hps =>
      refine .cons ?_ (ih hps (fun r hr => hper r (List.mem_cons_of_mem _ hr)))
      have key : ∀ f v, JointValue data ids pers o r f v → (if f = o then row.cell o else r.values f) = some v := by
        rintro f v ⟨h1, h2⟩
        split_ifs with h
        · obtain ⟨row', hrow', hv⟩ := h2 h
          rw [hper r List.mem_cons_self] at hrow'
          rw [uniqueRow hu hab hrow', ← h, hv]
        · exact h1 h
      exact ⟨key _ _ hp.1, key _ _ hp.2⟩

theorem plotScenarios_single {frame : PlotFrame} (hsc : ∀ r ∈ frame.rows, r.scenario = some "none") (hne : frame.rows ≠ []) :
    plotScenarios frame = [some "none"] ∧ scenarioRows frame (some "none") = frame.rows := by
  constructor
  · unfold plotScenarios
    have hrep : frame.rows.map (fun r => r.scenario) = List.replicate frame.rows.length (some "none") := by
      rw [List.eq_replicate_iff]
      refine ⟨by simp, ?_⟩
      intro b hb
      obtain ⟨r, hr, rfl⟩ := List.mem_map.mp hb
      exact hsc r hr
    rw [hrep]
    have := foldl_blocks [(some "none", frame.rows.length)] [] (by simp) (by simpa using List.length_pos_of_ne_nil hne) (by simp)
    rw [List.flatMap_cons, List.flatMap_nil, List.append_nil, List.nil_append] at this
    convert this
    rfl
  · unfold scenarioRows
    rw [List.filter_eq_self]
    intro r hr
    simp [hsc r hr]

/-- **C82** (part). One of the plotted factors is an observed factor `o` in the data, the other ones are in the states. The rows of the data with label `t` belong to the same individuals as the rows of the
states in period `t`, in the same order. Then all surface plots and contour plots show the joint distribution of the factors over individuals (the contours are transposed, see C80).
Missing: data in another order or with other labels of periods (`C82_counterexample`, `C82_counterexample_labels`). -/
theorem C82_joint_partial {m : ModelDict ℝ} {pm : Processed ℝ} (hpm : processModel m = .ok pm) {data : LongData ℝ} {ids pers : List ℤ} {df : PlotStatesFrame} {t : ℕ} {arg : Option (List String)}
    {observedFactors : Bool} {fs : List String} {o : String} (hfs : PlottedFactors m arg observedFactors fs) (hobs : fs.filter (fun f => decide (f ∈ data.columns)) = [o])
    (hcols : ∀ f ∈ fs, f ≠ o ↔ f ∈ df.columns) (hlat : ∃ f ∈ fs, f ≠ o) (hu : UniqueKeys data) (hin : InOrder data ids pers df.rows t) (nPoints nColors : ℕ) (hcolors : 0 < nColors) :
    ∃ surfaces contours, bivariateDensitySurfaces pm.labels data (.frame df) t arg observedFactors nPoints = .ok surfaces ∧
      bivariateDensityContours pm.labels data (.frame df) t arg observedFactors nPoints nColors = .ok contours ∧
      (∀ pair, pair ∈ surfaces.map Prod.fst ↔ pair.1 ∈ fs ∧ pair.2 ∈ fs ∧ pair.1 ≠ pair.2) ∧ (∀ pair, pair ∈ contours.map Prod.fst ↔ pair.1 ∈ fs ∧ pair.2 ∈ fs ∧ pair.1 ≠ pair.2) ∧
      (∀ pair plot, (pair, plot) ∈ surfaces → plot.xTitle = pair.1 ∧ plot.yTitle = pair.2 ∧
        ∀ ps, JointSample data ids pers o df.rows t pair ps → (NotDegenerate ps → SurfaceOf plot ps nPoints) ∧ (¬NotDegenerate ps → plot.traces = [])) ∧
      ∀ pair plot, (pair, plot) ∈ contours → plot.xTitle = pair.1 ∧ plot.yTitle = pair.2 ∧
        ∀ ps, JointSample data ids pers o df.rows t pair ps → NotDegenerate ps → ∃ trace, plot.traces = [trace] ∧ GridOf (ps.map (fun p => p 0)) nPoints trace.x ∧ GridOf (ps.map (fun p => p 1)) nPoints trace.y ∧
          trace.z = trace.x.map (fun x => trace.y.map (fun y => kernelDensity ps ![x, y])) := by
  refine ⟨(factorPairs fs).map (fun pair => (pair, surfacePlot (jointFrame data df t fs o) nPoints pair)), (factorPairs fs).map (fun pair => (pair, contourPlot (jointFrame data df t fs o) nPoints nColors pair)),
    ?_, ?_, ?_, ?_, ?_, ?_⟩
  · unfold bivariateDensitySurfaces
    simp only [plottedFactors_eq hpm hfs]
    rw [processPlotData_joint hobs hcols hlat]
    rfl
  · unfold bivariateDensityContours
    simp only [plottedFactors_eq hpm hfs]
    rw [processPlotData_joint hobs hcols hlat]
    rfl
  · intro pair
    rw [List.map_map]
    show pair ∈ (factorPairs fs).map id ↔ _
    rw [List.map_id]
    exact mem_factorPairs fs pair
  · intro pair
    rw [List.map_map]
    show pair ∈ (factorPairs fs).map id ↔ _
    rw [List.map_id]
    exact mem_factorPairs fs pair
  · intro pair plot hmem
    obtain ⟨pair', hp, hh⟩ := List.mem_map.mp hmem
    simp only [Prod.mk.injEq] at hh
    obtain ⟨rfl, rfl⟩ := hh
    have hpair := (mem_factorPairs fs pair').mp hp
    exact ⟨rfl, rfl, fun ps hps => surfacePlot_spec ⟨jointFrame_columns hpair.1, jointFrame_columns hpair.2.1⟩ (joint_pairValues hu hin hps) nPoints⟩
  · intro pair plot hmem
    obtain ⟨pair', hp, hh⟩ := List.mem_map.mp hmem
    simp only [Prod.mk.injEq] at hh
    obtain ⟨rfl, rfl⟩ := hh
    have hpair := (mem_factorPairs fs pair').mp hp
    refine ⟨rfl, rfl, fun ps hps hd => ?_⟩
    have hpv := joint_pairValues (fs := fs) hu hin hps
    have hsc : ∀ r ∈ (jointFrame data df t fs o).rows, r.scenario = some "none" := by
      rw [jointFrame_rows hin.length_eq]
      intro r hr
      obtain ⟨_, _, rfl⟩ := List.mem_map.mp hr
      rfl
    have hne : (jointFrame data df t fs o).rows ≠ [] := by
      intro h0
      rw [h0] at hpv
      cases hpv
      exact notDegenerate_ne hd rfl
    obtain ⟨h1, h2⟩ := plotScenarios_single hsc hne
    obtain ⟨g, hg, k1, k2, k3⟩ := (calculateKde_spec (columns := (jointFrame data df t fs o).columns) ⟨jointFrame_columns hpair.1, jointFrame_columns hpair.2.1⟩ hpv nPoints).1 hd
    refine ⟨{ x := g.xs, y := g.ys, z := g.zz }, ?_, k1, k2, k3⟩
    unfold contourPlot contourOf
    simp only [h1]
    simp [h2, hg, hcolors]

/-! ### C84 -/

/-- **C84.** Let `fs` be the plotted factors; all of them are latent factors with columns in the states, and each scenario has rows in the period. There is one plot for each factor. It shows the distributions of
the values of this factor in the period, one for each scenario (nothing if plotly cannot draw them). -/
theorem C84_univariate_latent {δ : Type} (distplot : List (Option String × List (Option ℝ)) → Option δ) {m : ModelDict ℝ} {pm : Processed ℝ} (hpm : processModel m = .ok pm) {data : LongData ℝ} {states : PlotStatesArg} {t : ℕ}
    {arg : Option (List String)} {observedFactors : Bool} {fs : List String} (hfs : PlottedFactors m arg observedFactors fs) (hne : fs ≠ []) (hs : scenariosOf states ≠ [])
    (hn : ((scenariosOf states).map Prod.fst).Nodup) (hrows : ∀ s ∈ scenariosOf states, ∃ r ∈ s.2.rows, r.period = t)
    (hcols : ∀ f ∈ fs, f ∉ data.columns ∧ ∀ s ∈ scenariosOf states, f ∈ s.2.columns) :
    univariateDensities distplot pm.labels data states t arg observedFactors = .ok (fs.map (fun f => (f,
      { traces := (distplot ((scenariosOf states).map (fun s => (some s.1, (s.2.rows.filter (fun r => decide (r.period = t))).map (fun r => r.values f))))).toList, xTitle := f, yTitle := "Density" }))) := by
  have hblocks : ∀ s ∈ scenariosOf states, scenarioBlock t s ≠ [] := by
    intro s hs'
    obtain ⟨r, hr, hrt⟩ := hrows s hs'
    exact List.ne_nil_of_mem (List.mem_map.mpr ⟨r, List.mem_filter.mpr ⟨hr, by simp [hrt]⟩, rfl⟩)
  unfold univariateDensities
  simp only [plottedFactors_eq hpm hfs]
  rw [processPlotData_states hne hs hcols]
  refine py_bind_ok.mpr ⟨_, rfl, ?_⟩
  refine mapM_pure_ok _ _ _ (fun f hf => ?_)
  rw [if_pos hf, plotScenarios_eq hn hblocks, List.map_map]
  congr 5
  refine List.map_congr_left (fun s hs' => ?_)
  rw [Function.comp_apply, scenarioRows_eq hn hs']
  unfold scenarioBlock
  rw [List.map_map]
  rfl

/-- **C84** (part). One of the plotted factors is an observed factor `o` in the data, the other ones are in the states. If the states and the data have the same positive number of rows in the period then there is
one plot for each factor, with the distribution of the values of this factor in the period.
Missing: two or more observed factors, for which there are no plots at all (`C84_two_observed`, `C84_counterexample`). -/
theorem C84_univariate_partial {δ : Type} (distplot : List (Option String × List (Option ℝ)) → Option δ) {m : ModelDict ℝ} {pm : Processed ℝ} (hpm : processModel m = .ok pm) {data : LongData ℝ} {df : PlotStatesFrame} {t : ℕ}
    {arg : Option (List String)} {observedFactors : Bool} {fs : List String} {o : String} (hfs : PlottedFactors m arg observedFactors fs) (hobs : fs.filter (fun f => decide (f ∈ data.columns)) = [o])
    (hcols : ∀ f ∈ fs, f ≠ o ↔ f ∈ df.columns) (hlat : ∃ f ∈ fs, f ≠ o)
    (hlen : (df.rows.filter (fun r => decide (r.period = t))).length = (data.rows.filter (fun r => decide (r.period = (t : ℤ)))).length) (hpos : ∃ r ∈ df.rows, r.period = t) :
    univariateDensities distplot pm.labels data (.frame df) t arg observedFactors = .ok (fs.map (fun f => (f,
      { traces := (distplot [(some "none", if f = o then (data.rows.filter (fun r => decide (r.period = (t : ℤ)))).map (fun r => r.cell o)
          else (df.rows.filter (fun r => decide (r.period = t))).map (fun r => r.values f))]).toList, xTitle := f, yTitle := "Density" }))) := by
  have hsc : ∀ r ∈ (jointFrame data df t fs o).rows, r.scenario = some "none" := by
    rw [jointFrame_rows hlen]
    intro r hr
    obtain ⟨_, _, rfl⟩ := List.mem_map.mp hr
    rfl
  have hne : (jointFrame data df t fs o).rows ≠ [] := by
    rw [jointFrame_rows hlen]
    obtain ⟨r, hr, hrt⟩ := hpos
    have h1 : 0 < (df.rows.filter (fun r => decide (r.period = t))).length := List.length_pos_of_mem (List.mem_filter.mpr ⟨hr, decide_eq_true hrt⟩)
    intro h0
    have h0 := congrArg List.length h0
    rw [List.length_map, List.length_zip, ← hlen, min_self, List.length_nil] at h0
    omega
  obtain ⟨h1, h2⟩ := plotScenarios_single hsc hne
  unfold univariateDensities
  simp only [plottedFactors_eq hpm hfs]
  rw [processPlotData_joint hobs hcols hlat]
  refine py_bind_ok.mpr ⟨_, rfl, ?_⟩
  refine mapM_pure_ok _ _ _ (fun f hf => ?_)
  rw [if_pos (jointFrame_columns hf), h1, List.map_singleton, h2, jointFrame_rows hlen, List.map_map]
  congr 7
  split_ifs with h
  · rw [show ((fun r : PlotRow => r.value f) ∘ fun rr : StateRow × LongRow ℝ => ({ scenario := some "none", value := fun f => if f = o then rr.2.cell o else rr.1.values f } : PlotRow)) =
        (fun r : LongRow ℝ => r.cell o) ∘ Prod.snd from funext (fun rr => by simp [h]), ← List.map_map, List.map_snd_zip hlen.ge]
  · rw [show ((fun r : PlotRow => r.value f) ∘ fun rr : StateRow × LongRow ℝ => ({ scenario := some "none", value := fun f => if f = o then rr.2.cell o else rr.1.values f } : PlotRow)) =
        (fun r : StateRow => r.values f) ∘ Prod.fst from funext (fun rr => by simp [h]), ← List.map_map, List.map_fst_zip hlen.le]

/-- **C84.** If two observed factors are plotted then univariate_densities raises an exception. -/
theorem C84_two_observed {δ : Type} (distplot : List (Option String × List (Option ℝ)) → Option δ) {m : ModelDict ℝ} {pm : Processed ℝ} (hpm : processModel m = .ok pm) {data : LongData ℝ} {df : PlotStatesFrame} {t : ℕ}
    {arg : Option (List String)} {observedFactors : Bool} {fs : List String} (hfs : PlottedFactors m arg observedFactors fs) {o p : String} (ho : o ∈ fs ∧ o ∈ data.columns ∧ o ∉ df.columns)
    (hp : p ∈ fs ∧ p ∈ data.columns ∧ p ∉ df.columns) (hop : o ≠ p) (plots : List (String × DensityPlot δ)) :
    univariateDensities distplot pm.labels data (.frame df) t arg observedFactors ≠ .ok plots := by
  intro h
  unfold univariateDensities at h
  simp only [plottedFactors_eq hpm hfs] at h
  obtain ⟨frame, hframe, h⟩ := py_bind_ok.mp h
  have hcol : ∃ q ∈ fs, q ∉ frame.columns := by
    unfold processPlotData plotStatesFrame at hframe
    simp only [] at hframe
    split_ifs at hframe with hnil
    · cases hframe
    · have hofs : ∀ q, q ∉ df.columns → q ∉ fs.filter (fun f => decide (f ∈ df.columns)) := fun q hq hm => hq (of_decide_eq_true (List.mem_filter.mp hm).2)
      have hmo : o ∈ fs.filter (fun f => decide (f ∈ data.columns)) := List.mem_filter.mpr ⟨ho.1, decide_eq_true ho.2.1⟩
      have hmp : p ∈ fs.filter (fun f => decide (f ∈ data.columns)) := List.mem_filter.mpr ⟨hp.1, decide_eq_true hp.2.1⟩
      have hg : ∃ rows, getDataObservedFactors data fs = some { column := none, rows := rows } := by
        unfold getDataObservedFactors
        generalize fs.filter (fun f => decide (f ∈ data.columns)) = obs at hmo hmp
        cases obs with
        | nil => cases hmo
        | cons a as =>
          refine ⟨_, by
            simp only []
            rw [if_neg]
            intro hall
            have : ∀ q ∈ a :: as, q = a := by
              intro q hq
              rcases List.mem_cons.mp hq with rfl | hq
              · rfl
              · exact hall q hq
            exact hop ((this o hmo).trans (this p hmp).symm)⟩
      obtain ⟨rows, hg⟩ := hg
      rw [hg] at hframe
      have hframe := Except.ok.inj hframe
      subst hframe
      refine ⟨o, ho.1, ?_⟩
      show o ∉ _ ++ []
      rw [List.append_nil]
      exact hofs o ho.2.2
  obtain ⟨q, hq, hqc⟩ := hcol
  obtain ⟨r, _, hr⟩ := forall₂_mem ((mapM_ok_iff _ _ _).mp h) hq
  rw [if_neg hqc] at hr
  cases hr

end Skill
