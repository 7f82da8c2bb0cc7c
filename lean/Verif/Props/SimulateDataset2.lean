import Verif.Props.SimulateDataset
import Verif.Props.Pipeline
/-
The arguments that simulate_dataset accepts.
-/
namespace Skill
open Spec

theorem simulationData_some {pm : Processed ℝ} {nObs : Option Nat} {df : LongData ℝ} {out : ℕ × List (List (List (Option ℝ))) × List (List (List (Option ℝ)))}
    (h : simulationData pm nObs (some df) = .ok out) : ∃ d, processData df pm.labels pm.updateInfo pm.anchoring .simulation = .ok d := by
  obtain ⟨d, hd, _⟩ := py_bind_ok.mp h
  exact ⟨d, hd⟩

/-- If simulate_dataset accepts a dataset, then so does process_data. -/
theorem simulateDataset_accepted {root : NormalRoot} {m : ModelDict ℝ} {pm : Processed ℝ} (hpm : processModel m = .ok pm) {custom : String → CustomFn} {nan : ℝ} {params : List (Loc × ℝ)} {nObs : Option Nat}
    {df : LongData ℝ} {policies : List Policy} {draws : DatasetDraws} {out : SimulatedDataset} (h : simulateDataset root custom nan m params nObs (some df) policies draws = .ok out) :
    ∃ d, processData df pm.labels pm.updateInfo pm.anchoring .simulation = .ok d := by
  unfold simulateDataset at h
  simp only [Option.isNone_some, Bool.false_and, Bool.false_eq_true, if_false] at h
  obtain ⟨pm', hpm', h⟩ := py_bind_ok.mp h
  obtain rfl := Except.ok.inj (hpm.symm.trans hpm')
  obtain ⟨d, hd, _⟩ := py_bind_ok.mp h
  exact simulationData_some hd

/-- C90: without data, simulate_dataset needs n_obs, at least one individual and a model without control variables and observed factors. -/
theorem C90_data_required (root : NormalRoot) {m : ModelDict ℝ} {pm : Processed ℝ} (hpm : processModel m = .ok pm) (custom : String → CustomFn) (nan : ℝ) (params : List (Loc × ℝ)) {nObs : Option Nat}
    (h : nObs = none ∨ nObs = some 0 ∨ m.controls.getD [] ≠ [] ∨ m.observedFactors.getD [] ≠ []) (policies : List Policy) (draws : DatasetDraws) :
    ∃ e, simulateDataset root custom nan m params nObs none policies draws = .error e ∧ (¬nObs = some 0 → e = .valueError) := by
  obtain ⟨_, hobs, hcon, _⟩ := labels_of_ok hpm
  unfold simulateDataset
  cases nObs with
  | none => exact ⟨.valueError, by simp, fun _ => rfl⟩
  | some n =>
    simp only [Option.isNone_none, Option.isNone_some, Bool.and_false, Bool.false_eq_true, if_false, hpm, bind, Except.bind, Bool.true_and, decide_eq_true_eq, hobs, hcon]
    split_ifs with h1 h2
    · exact ⟨.valueError, rfl, fun _ => rfl⟩
    · exact ⟨.valueError, rfl, fun _ => rfl⟩
    · have hn : n = 0 := by
        rcases h with h | h | h | h
        · cases h
        · exact Option.some.inj h
        · exact absurd (by simpa using h2) h
        · exact absurd h h1
      subst hn
      have herr : ∀ {β : Type} (x : Py β), (∀ b, x ≠ .ok b) → ∃ e, x = .error e := fun x hx => by
        cases x with
        | error e => exact ⟨e, rfl⟩
        | ok b => exact absurd rfl (hx b)
      obtain ⟨e, he⟩ := herr (β := SimulatedDataset) (simulateDataset root custom nan m params (some 0) none policies draws) (by
        intro out ho
        unfold simulateDataset at ho
        simp only [Option.isNone_none, Option.isNone_some, Bool.and_false, Bool.false_eq_true, if_false, hpm, bind, Except.bind, Bool.true_and, decide_eq_true_eq, hobs, hcon, if_neg h1, if_neg h2] at ho
        obtain ⟨_, _, ho⟩ := py_bind_ok.mp ho
        obtain ⟨_, _, ho⟩ := py_bind_ok.mp ho
        obtain ⟨_, _, ho⟩ := py_bind_ok.mp ho
        obtain ⟨_, hs, _⟩ := py_bind_ok.mp ho
        obtain ⟨_, _, hs⟩ := py_bind_ok.mp hs
        obtain ⟨_, _, hs⟩ := py_bind_ok.mp hs
        obtain ⟨_, _, hs⟩ := py_bind_ok.mp hs
        rw [dif_neg (by simp [simulationData] at *)] at hs
        cases hs)
      refine ⟨e, ?_, fun h => absurd rfl h⟩
      rw [← he]
      unfold simulateDataset
      simp only [Option.isNone_none, Option.isNone_some, Bool.and_false, Bool.false_eq_true, if_false, hpm, bind, Except.bind, Bool.true_and, decide_eq_true_eq, hobs, hcon, if_neg h1, if_neg h2]

/-- C89 (what the data must contain): for a dataset with all control variables and observed factors, simulate_dataset succeeds exactly if no row occurs twice, the anchoring outcomes are columns of the data, and every
measurement has a column. The documentation only asks for observed factors and control variables; see `Ex.C89_counterexample`. -/
theorem C89_data_needed_partial (root : NormalRoot) {m : ModelDict ℝ} {pm : Processed ℝ} (hpm : processModel m = .ok pm) {k : ℕ} (hm : SimulationModel m k) (custom : String → CustomFn) (nan : ℝ) {val : Loc → ℝ}
    {policies : List Policy} (hv : SimulationValues custom m k val policies) {params : List (Loc × ℝ)} (hparams : HasParams m params val) (nObs : Option Nat) {df : LongData ℝ} (hi : IndexOk df)
    (hu : NoUnusedPeriods df) {ids pers : List Int} (hids : IdsOf df ids) (hpers : PeriodsOf df pers) (hn : 0 < ids.length) {cov : Nat → Covariates} (hcov : ∀ i < ids.length, KnownCovariates m df ids pers i (cov i))
    (hcols : ∀ c, c ∈ m.controls.getD [] ∨ c ∈ m.observedFactors.getD [] → c ∈ df.columns) {draws : DatasetDraws} (hd : k ≠ 1 → ∀ i < ids.length, draws.element i < k) :
    (∃ out, simulateDataset root custom nan m params nObs (some df) policies draws = .ok out) ↔
      UniqueKeys df ∧ (∀ f o, AnchoredIn m f o → o ∈ df.columns ∨ o = "constant") ∧ ∀ t v, IsUpdate m t v → HasVariable m df v := by
  obtain ⟨hc, ho, hclash⟩ := hm.anchoring
  constructor
  · rintro ⟨out, hout⟩
    have h := (processData_accepts hpm hm.names.keys hclash hi hu hids hpers .simulation).mp (simulateDataset_accepted hpm hout)
    exact ⟨h.1.keys, h.1.outcomes, h.1.measurements⟩
  · rintro ⟨h1, h2, h3⟩
    have hval : ∀ {i t : ℕ} {c : String} {v w : Option ℝ}, HasValue m df ids pers i t c v → HasValue m df ids pers i t c w → v = w := by
      intro i t c v w a b
      obtain ⟨x, hx, ha⟩ := (hasValue_iff hpm hclash hi hu h1 hids hpers i t c v).mp a
      obtain ⟨y, hy, hb⟩ := (hasValue_iff hpm hclash hi hu h1 hids hpers i t c w).mp b
      obtain rfl := Option.some.inj (hx.symm.trans hy)
      rw [ha, hb]
    have hok : SimulationDataOk m df ids pers := by
      refine ⟨h1, h2, fun t ht c hcc => ⟨?_, ?_⟩, h3, fun t ht f hf => ⟨Or.inl (hcols f (Or.inr hf)), ?_⟩⟩
      · rcases List.mem_cons.mp hcc with rfl | hcc
        · exact Or.inr (Or.inl rfl)
        · exact Or.inl (hcols c (Or.inl hcc))
      · obtain ⟨r, hr, hrc, _⟩ := hcov 0 hn t ht
        exact ⟨0, _, hn, r, hr, hrc c hcc⟩
      · intro i hnone
        obtain ⟨r, hr, _, hrf⟩ := hcov i hnone.1 t ht
        exact absurd (hval hnone ⟨hnone.1, r, hr, hrf f hf⟩) (by simp)
    obtain ⟨_, out, _, h⟩ := C90_simulated_dataset root hpm hm custom nan hv hparams (nObs := nObs) (data := some df) (.ofData hi hu hids hpers hok hcov) hn hd
    exact ⟨out, h params nObs hparams (.ofData hi hu hids hpers hok hcov)⟩

/-- C94 (what the simulated data contain): whatever the arguments are, the columns of the simulated measurements are the measurements and the variables of the anchoring equations. A control variable, observed factor or anchoring
outcome is not among them, unless it has the name of a measurement. The documentation promises control variables; see `Ex.C94_counterexample`. -/
theorem C94_columns_partial {root : NormalRoot} {m : ModelDict ℝ} (hper : IsPeriod m 0) {custom : String → CustomFn} {nan : ℝ} {params : List (Loc × ℝ)} {nObs : Option Nat} {data : Option (LongData ℝ)}
    {policies : List Policy} {draws : DatasetDraws} {out : SimulatedDataset} (h : simulateDataset root custom nan m params nObs data policies draws = .ok out) (c : String) :
    c ∈ out.measurements.columns ↔ (∃ t f, Measures m t c f) ∨ ∃ f, Anchors m c f := by
  unfold simulateDataset at h
  split_ifs at h
  obtain ⟨pm, hpm, h⟩ := py_bind_ok.mp h
  split_ifs at h
  obtain ⟨⟨n, con, obs⟩, _, h⟩ := py_bind_ok.mp h
  obtain ⟨_, _, h⟩ := py_bind_ok.mp h
  obtain ⟨_, _, h⟩ := py_bind_ok.mp h
  obtain ⟨_, _, h⟩ := py_bind_ok.mp h
  obtain ⟨_, _, h⟩ := py_bind_ok.mp h
  obtain ⟨_, _, h⟩ := py_bind_ok.mp h
  obtain rfl := py_pure_ok.mp h
  simp only [measurementFrame, List.mem_dedup, List.mem_map]
  constructor
  · rintro ⟨r, hr, rfl⟩
    rcases ((C01_update_info_exact hpm).2.1 _ _).mp ⟨r, hr, rfl, rfl⟩ with h | h
    · exact Or.inl ⟨_, h⟩
    · exact Or.inr h.2
  · intro h
    obtain ⟨t, ht⟩ : ∃ t, IsUpdate m t c := by
      rcases h with ⟨t, h⟩ | h
      · exact ⟨t, Or.inl h⟩
      · exact ⟨0, Or.inr ⟨hper, h⟩⟩
    obtain ⟨r, hr, _, h2⟩ := ((C01_update_info_exact hpm).2.1 _ _).mpr ht
    exact ⟨r, hr, h2⟩

end Skill
