import Verif.Lemmas.CondDensity
import Verif.Spec.Contributions
import Verif.Props.Residuals
import Verif.Props.ObservationalEquivalence
/-
C126: the entries of all_contributions are logarithms of conditional densities.
-/
namespace Skill
open MeasureTheory ProbabilityTheory Matrix Spec

/-- Rows of all_contributions. -/
theorem allContributions_rows {nObs : ℕ} {cs : List (Fin nObs → ℝ)} {u : List URow} (hlen : cs.length = u.length) {rows : List ContributionRow} (h : processAllContributions cs u = .ok rows) :
    rows.length = u.length * nObs ∧ ∀ (k : ℕ) (row : URow) (c : Fin nObs → ℝ) (i : Fin nObs), u[k]? = some row → cs[k]? = some c → rows[k * nObs + i.val]? = some ⟨c i, row.var, row.period, i.val⟩ := by
  unfold processAllContributions at h
  dsimp only at h
  split_ifs at h
  obtain rfl := Except.ok.inj h
  have hblk : ∀ xs ∈ (u.zip cs).map (fun x => (List.finRange nObs).map (fun i => ({ contribution := x.2 i, measurement := x.1.var, period := x.1.period, id := i.val } : ContributionRow))), xs.length = nObs := by
    intro xs hxs
    obtain ⟨x, _, rfl⟩ := List.mem_map.mp hxs
    simp
  constructor
  · rw [List.length_flatten, List.map_congr_left (g := fun _ => nObs) hblk]
    simp [hlen, Function.comp_def, List.map_const']
  · intro k row c i hrow hc
    rw [flatten_getElem? hblk (xs := (List.finRange nObs).map (fun i => ({ contribution := c i, measurement := row.var, period := row.period, id := i.val } : ContributionRow))) _ i.isLt]
    · simp
    · rw [List.getElem?_map, show (u.zip cs)[k]? = some (row, c) from List.getElem?_zip_eq_some.mpr ⟨hrow, hc⟩]
      rfl

theorem processDebugData_contributions {nObs nMix n : ℕ} {factors : List String} {r : LoglikeResult nObs nMix n} {u : List URow} {out : DebugData} (h : processDebugData u factors nObs nMix n r = .ok out) :
    processAllContributions r.allContributions u = .ok out.allContributions := by
  unfold processDebugData at h
  simp only [py_bind_ok, py_pure_ok] at h
  obtain ⟨_, _, _, _, _, _, _, _, c, hc, rfl⟩ := h
  exact hc

/-- The data with zeros for what is missing. -/
noncomputable def maskData (updates : List (Nat × String)) (cov : Covariates) (y : Fin updates.length → ℝ) (k : Fin updates.length) : ℝ :=
  if cov.isObserved (updates.get k).1 (updates.get k).2 then y k else 0

/-- The measurements before update `j` and update `j` itself. -/
def UpTo (m : ModelDict ℝ) (updates : List (Nat × String)) (j : Fin updates.length) (t : Nat) (v : String) : Prop := EarlierMeasurement m updates j t v ∨ updates.get j = (t, v)

/-- The conditional density of a measurement given the earlier ones. -/
noncomputable def condDensity (custom : String → CustomFn) (m : ModelDict ℝ) (pm : Processed ℝ) (nT : ℕ) (val : Loc → ℝ) (cov : Covariates) (y : Fin (updateList pm).length → ℝ) (j : Fin (updateList pm).length) : ℝ :=
  valuesDensity custom m pm nT val (cov.only (UpTo m (updateList pm) j)) (maskData _ (cov.only (UpTo m (updateList pm) j)) y) /
    valuesDensity custom m pm nT val (cov.only (EarlierMeasurement m (updateList pm) j)) (maskData _ (cov.only (EarlierMeasurement m (updateList pm) j)) y)

theorem only_observed (cov : Covariates) (p : Nat → String → Prop) (t : Nat) (v : String) : (cov.only p).isObserved t v = true ↔ p t v ∧ cov.isObserved t v = true := by
  unfold Covariates.only
  simp

theorem not_before {m : ModelDict ℝ} {updates : List (Nat × String)} (hn : updates.Nodup) (j : Fin updates.length) : ¬EarlierMeasurement m updates j (updates.get j).1 (updates.get j).2 := by
  rintro ⟨_, i, hi, h⟩
  have := (List.nodup_iff_injective_get.mp hn) (h : updates.get i = updates.get j)
  omega

theorem upTo_iff {m : ModelDict ℝ} {updates : List (Nat × String)} (hn : updates.Nodup) {j k : Fin updates.length} (h : k ≠ j) :
    UpTo m updates j (updates.get k).1 (updates.get k).2 ↔ EarlierMeasurement m updates j (updates.get k).1 (updates.get k).2 :=
  ⟨fun h' => h'.elim id (fun h' => absurd ((List.nodup_iff_injective_get.mp hn) (h' : updates.get j = updates.get k)).symm h), Or.inl⟩

section
variable {m : ModelDict ℝ} {pm : Processed ℝ} {k : ℕ} {val : Loc → ℝ} {nT : ℕ}

theorem continuous_maskData (updates : List (Nat × String)) (cov : Covariates) : Continuous (maskData updates cov) := by
  refine continuous_pi (fun k => ?_)
  unfold maskData
  split_ifs
  · exact continuous_apply k
  · exact continuous_const

theorem continuous_valuesDensity (hpm : processModel m = .ok pm) (hm : LinearModel m k) (hg : GoodNames m) (custom : String → CustomFn) (cov : Covariates) : Continuous (valuesDensity custom m pm nT val cov) :=
  (continuous_covDensity hm hg hpm nT custom cov).comp (continuous_pi (fun j => continuous_apply (Fin.cast (updateList_length custom m pm val nT cov) j)))

/-- The conditional distribution of a measurement given the earlier ones. -/
theorem label_condDensity (hpm : processModel m = .ok pm) (hm : LinearModel m k) (hg : GoodNames m) (hv : ProperValues m k val) (hT : pm.dimensions.nPeriods = nT + 2) (custom : String → CustomFn) (cov : Covariates)
    {Ω : Type} [MeasurableSpace Ω] {P : Measure Ω} [IsProbabilityMeasure P] {E : Ω → Fin k} {Z : Noise → Ω → ℝ} (hZ : RandomNoise P val E Z) (j : Fin (updateList pm).length)
    (hj : cov.isObserved ((updateList pm).get j).1 ((updateList pm).get j).2 = true) {B : Set ℝ} (hB : MeasurableSet B) :
    let y := fun ω => measurementValue m val cov (E ω) (fun a => Z a ω)
    let past := fun ω => observedData (updateList pm) (cov.only (EarlierMeasurement m (updateList pm) j)) (y ω)
    P⟦(fun ω => y ω ((updateList pm).get j).1 ((updateList pm).get j).2) ⁻¹' B | MeasurableSpace.comap past inferInstance⟧ =ᵐ[P]
      fun ω => ∫ x in B, condDensity custom m pm nT val cov (Function.update (past ω) j x) j := by
  classical
  intro y past
  have hen := updateList_enumerates hpm
  let X := fun ω => observedData (updateList pm) (cov.only (UpTo m (updateList pm) j)) (y ω)
  have hmeas : ∀ p, Measurable (fun ω => observedData (updateList pm) (cov.only p) (y ω)) := by
    intro p
    have := (measurable_observed m val (cov.only p) (updateList pm)).comp (hZ.measurable_element.prodMk (measurable_pi_lambda _ hZ.measurable))
    have e : (fun ω => observedData (updateList pm) (cov.only p) (y ω)) = (fun d : Fin k × (Noise → ℝ) => observedData (updateList pm) (cov.only p) (measurementValue m val (cov.only p) d.1 d.2)) ∘ fun ω => (E ω, fun a => Z a ω) := by
      funext ω
      simp only [y, Function.comp_apply, measurementValue_only]
    rw [e]
    exact this
  have hlaw : ∀ p, P.map (fun ω => observedData (updateList pm) (cov.only p) (y ω)) = (referenceMeasure (updateList pm) (cov.only p)).withDensity (fun z => ENNReal.ofReal (valuesDensity custom m pm nT val (cov.only p) z)) := by
    intro p
    have h := label_law hm hg hv hpm hT custom (cov.only p) (updates := updateList pm) rfl (updateList_length custom m pm val nT (cov.only p)) hZ
    simp only [measurementValue_only] at h
    exact h
  have o1 : (cov.only (UpTo m (updateList pm) j)).isObserved ((updateList pm).get j).1 ((updateList pm).get j).2 = true := (only_observed _ _ _ _).mpr ⟨Or.inr rfl, hj⟩
  have o2 : ¬(cov.only (EarlierMeasurement m (updateList pm) j)).isObserved ((updateList pm).get j).1 ((updateList pm).get j).2 = true := fun h => not_before hen.nodup j ((only_observed _ _ _ _).mp h).1
  have o3 : ∀ i, i ≠ j → ((cov.only (UpTo m (updateList pm) j)).isObserved ((updateList pm).get i).1 ((updateList pm).get i).2 = true ↔ (cov.only (EarlierMeasurement m (updateList pm) j)).isObserved ((updateList pm).get i).1 ((updateList pm).get i).2 = true) := by
    intro i hi
    rw [only_observed, only_observed, upTo_iff hen.nodup hi]
  let μ : Fin (updateList pm).length → Measure ℝ := fun i => if (cov.only (UpTo m (updateList pm) j)).isObserved ((updateList pm).get i).1 ((updateList pm).get i).2 then volume else Measure.dirac 0
  have hσ : ∀ i, SigmaFinite (μ i) := by
    intro i
    show SigmaFinite (if _ then _ else _)
    split_ifs <;> infer_instance
  have hμj : μ j = volume := if_pos o1
  have hμ : (fun i => if (cov.only (EarlierMeasurement m (updateList pm) j)).isObserved ((updateList pm).get i).1 ((updateList pm).get i).2 then (volume : Measure ℝ) else Measure.dirac 0) = Function.update μ j (Measure.dirac 0) := by
    funext i
    by_cases h : i = j
    · subst h
      rw [Function.update_self, if_neg o2]
    · rw [Function.update_of_ne h]
      exact if_congr (o3 i h).symm rfl rfl
  have hpast : ∀ ω, past ω = Function.update (X ω) j 0 := by
    intro ω
    funext i
    by_cases h : i = j
    · subst h
      rw [Function.update_self]
      exact if_neg o2
    · rw [Function.update_of_ne h]
      exact if_congr (o3 i h).symm rfl rfl
  have hXj : ∀ ω, X ω j = y ω ((updateList pm).get j).1 ((updateList pm).get j).2 := fun ω => if_pos o1
  have hl2 := hlaw (EarlierMeasurement m (updateList pm) j)
  unfold referenceMeasure at hl2
  rw [hμ] at hl2
  have h := condExp_density (hmeas _) hpast (continuous_valuesDensity hpm hm hg custom _).measurable (continuous_valuesDensity hpm hm hg custom _).measurable
    (fun z => covDensity_pos hm hv hpm nT custom _ _) (fun z => covDensity_pos hm hv hpm nT custom _ _) (μ := μ) (hlaw (UpTo m (updateList pm) j)) hl2 hB
  simp only [hμj] at h
  have e : (fun ω => y ω ((updateList pm).get j).1 ((updateList pm).get j).2) = fun ω => X ω j := funext (fun ω => (hXj ω).symm)
  rw [e]
  refine h.trans (Filter.Eventually.of_forall (fun ω => ?_))
  refine integral_congr_ae (Filter.Eventually.of_forall (fun x => ?_))
  dsimp only
  unfold condDensity
  have m1 : maskData (updateList pm) (cov.only (UpTo m (updateList pm) j)) (Function.update (past ω) j x) = Function.update (past ω) j x := by
    funext i
    unfold maskData
    by_cases hi : i = j
    · subst hi
      rw [if_pos o1]
    · rw [Function.update_of_ne hi]
      split_ifs with ho
      · rfl
      · exact (if_neg (fun h => ho ((o3 i hi).mpr h))).symm
  have m2 : maskData (updateList pm) (cov.only (EarlierMeasurement m (updateList pm) j)) (Function.update (past ω) j x) = past ω := by
    funext i
    unfold maskData
    by_cases hi : i = j
    · subst hi
      rw [if_neg o2]
      exact (if_neg o2).symm
    · rw [Function.update_of_ne hi]
      split_ifs with ho
      · rfl
      · exact (if_neg ho).symm
  rw [m1, m2]

/-- The contribution of an update is the logarithm of the conditional density. -/
theorem contribution_condDensity {qr : QR} (hqr : ValidQR qr) (hpm : processModel m = .ok pm) (hm : LinearModel m k) (hg : GoodNames m) (hkappa : ∀ o x, m.estimationOptions = some o → o.sigmaPointsScale = some x → 0 ≤ x)
    (hv : ProperValues m k val) (hanch : m.anchoring = none ∨ k = 1) (hT : pm.dimensions.nPeriods = nT + 2) (custom : String → CustomFn) (nan : ℝ)
    {df : LongData ℝ} {ids pers : List Int} (hi : IndexOk df) (hu : NoUnusedPeriods df) (hids : IdsOf df ids) (hpers : PeriodsOf df pers) {pd : ProcessedData ℝ}
    (hdata : processData df pm.labels pm.updateInfo pm.anchoring .estimation = .ok pd) {con : Fin (nT + 2) → Fin ids.length → Fin (nCon m) → ℝ} {obs : Fin (nT + 2) → Fin ids.length → Fin (nObsd m) → ℝ}
    {data : Fin pm.updateInfo.length → Fin ids.length → Option ℝ} (hcon : ∀ (t : Fin (nT + 2)) (i : Fin ids.length) (j : Fin (nCon m)), ∃ w, entry3 pd.controls t i j = some w ∧ con t i j = w.getD nan)
    (hobs : ∀ (t : Fin (nT + 2)) (i : Fin ids.length) (j : Fin (nObsd m)), ∃ w, entry3 pd.observedFactors t i j = some w ∧ obs t i j = w.getD nan)
    (hmeas : ∀ (k : Fin pm.updateInfo.length) (i : Fin ids.length), entry2 (pd.measurements.getD []) k i = some (data k i))
    {i : ℕ} {cov : Covariates} {y : Nat → String → ℝ} (hil : i < ids.length) (hdesc : Describes m df ids pers i cov y) (j : Fin (updateList pm).length)
    {o : StepOut ids.length pm.dimensions.nMixtures (nLat m)}
    (ho : (outs qr (labelFixed custom m pm val ids.length nT con obs) (labelCarry m val ids.length pm.dimensions.nMixtures) (loopArgs (nT + 1) (pm.updateInfo.map (labelRow m val)) (List.ofFn data)))[j.val]? = some o) :
    o.loglikes ⟨i, hil⟩ = if cov.isObserved ((updateList pm).get j).1 ((updateList pm).get j).2 then Real.log (condDensity custom m pm nT val cov (observedData (updateList pm) cov y) j) else 0 := by
  classical
  have hen := updateList_enumerates hpm
  set rows := outs qr (labelFixed custom m pm val ids.length nT con obs) (labelCarry m val ids.length pm.dimensions.nMixtures) (loopArgs (nT + 1) (pm.updateInfo.map (labelRow m val)) (List.ofFn data)) with hrows
  have hl : rows.length = pm.updateInfo.length := by rw [hrows, outs_length, loopArgs_length _ _ (by simp), List.length_map]
  let c : Fin (updateList pm).length → ℝ := fun a => (((rows.map (fun o => o.loglikes)).map List.ofFn).getD a []).getD i 0
  have hcj : c j = o.loglikes ⟨i, hil⟩ := by
    show (((rows.map (fun o => o.loglikes)).map List.ofFn).getD j []).getD i 0 = _
    rw [List.getD_eq_getElem?_getD (l := (rows.map (fun o => o.loglikes)).map List.ofFn), List.getElem?_map, List.getElem?_map, ho]
    show (List.ofFn o.loglikes).getD i 0 = _
    rw [List.getD_eq_getElem?_getD, List.getElem?_ofFn, dif_pos hil, Option.getD_some]
  have hrow : ∀ {a : ℕ} {r : URow}, pm.updateInfo[a]? = some r → ∃ a' : Fin (updateList pm).length, a'.val = a ∧ (updateList pm).get a' = (r.period, r.var) := by
    intro a r hr
    obtain ⟨h, rfl⟩ := List.getElem?_eq_some_iff.mp hr
    exact ⟨⟨a, by rw [List.length_map]; exact h⟩, rfl, List.getElem_map _⟩
  have hp2 : ∀ a r, pm.updateInfo[a]? = some r → (a < j.val → (EarlierMeasurement m (updateList pm) j r.period r.var ↔ IsMeasurement m r.period r.var)) ∧ (j.val < a → ¬EarlierMeasurement m (updateList pm) j r.period r.var) := by
    intro a r hr
    obtain ⟨a', rfl, ha'⟩ := hrow hr
    refine ⟨fun ha => ⟨fun h => h.1, fun h => ⟨h, a', ha, ha'⟩⟩, ?_⟩
    rintro ha ⟨_, b, hb, hb'⟩
    have := (List.nodup_iff_injective_get.mp hen.nodup) (hb'.trans ha'.symm)
    subst this
    exact absurd hb (not_lt.mpr (le_of_lt ha))
  have hp1 : ∀ a r, pm.updateInfo[a]? = some r → (a < j.val → (UpTo m (updateList pm) j r.period r.var ↔ IsMeasurement m r.period r.var)) ∧ (j.val < a → ¬UpTo m (updateList pm) j r.period r.var) := by
    intro a r hr
    obtain ⟨b1, b2⟩ := hp2 a r hr
    obtain ⟨a', rfl, ha'⟩ := hrow hr
    have hne : ∀ h : (updateList pm).get j = (r.period, r.var), j = a' := fun h => (List.nodup_iff_injective_get.mp hen.nodup) (h.trans ha'.symm)
    refine ⟨fun ha => ⟨fun h => h.elim (b1 ha).mp (fun h => ?_), fun h => Or.inl ((b1 ha).mpr h)⟩, fun ha h => h.elim (b2 ha) (fun h => ?_)⟩
    · rw [hne h] at ha
      exact absurd ha (lt_irrefl _)
    · rw [hne h] at ha
      exact absurd ha (lt_irrefl _)
  have hsum : ∀ p : Nat → String → Prop, (∀ a r, pm.updateInfo[a]? = some r → (a < j.val → (p r.period r.var ↔ IsMeasurement m r.period r.var)) ∧ (j.val < a → ¬p r.period r.var)) →
      (∑ a : Fin (updateList pm).length, if p ((updateList pm).get a).1 ((updateList pm).get a).2 then c a else 0) =
        Real.log (valuesDensity custom m pm nT val (cov.only p) (maskData _ (cov.only p) (observedData (updateList pm) cov y))) := by
    intro p hp
    have h1 := sum_updates hl i hil p rfl (fun a => inferInstance)
    rw [hrows, label_contributions hqr hm hg hkappa hv hanch hpm hT custom nan hi hu hids hpers hdata hcon hobs hmeas hil hdesc hp (updateList_length custom m pm val nT (cov.only p))] at h1
    refine h1.trans (congrArg Real.log ?_)
    show valuesDensity custom m pm nT val (cov.only p) (observedData (updateList pm) (cov.only p) y) = _
    congr 1
    funext a
    unfold maskData observedData
    by_cases h : (cov.only p).isObserved ((updateList pm).get a).1 ((updateList pm).get a).2 = true
    · rw [if_pos h, if_pos h, if_pos ((only_observed _ _ _ _).mp h).2]
    · rw [if_neg h, if_neg h]
  have hdiff := contribution_difference hen.nodup c j (UpTo m (updateList pm) j) (EarlierMeasurement m (updateList pm) j) (Or.inr rfl) (not_before hen.nodup j) (fun a ha => upTo_iff hen.nodup ha)
  rw [hcj, hsum _ hp1, hsum _ hp2] at hdiff
  rw [hdiff]
  by_cases hob : cov.isObserved ((updateList pm).get j).1 ((updateList pm).get j).2 = true
  · rw [if_pos hob]
    exact (Real.log_div (covDensity_pos hm hv hpm nT custom _ _).ne' (covDensity_pos hm hv hpm nT custom _ _).ne').symm
  · rw [if_neg hob]
    have : cov.only (UpTo m (updateList pm) j) = cov.only (EarlierMeasurement m (updateList pm) j) := by
      unfold Covariates.only
      congr 1
      funext t v
      by_cases h : (updateList pm).get j = (t, v)
      · rw [h] at hob
        simp [hob]
      · have : UpTo m (updateList pm) j t v ↔ EarlierMeasurement m (updateList pm) j t v := ⟨fun h' => h'.elim id (fun h' => absurd h' h), Or.inl⟩
        simp only [this]
    rw [this, sub_self]

end

/-- **C126**: consider a model with linear and constant transitions (and any number of mixture elements if there is no anchoring). There is a function `density` of the covariates of an individual and of the measurements, such that

* it is positive and continuous, and the value for an update only depends on the variable of this update and on earlier measurements (not on anchoring outcomes);
* in each random experiment with the noise of the model, it is the conditional density of the variable given the earlier measurements that are observed;
* the DataFrame all_contributions in the output of debug_loglike has one row for each update and individual. It contains the logarithm of `density` at the data of the individual if the variable is observed and 0 if it is
  missing, next to the period and the name of the variable and the number of the individual. -/
theorem C126_contributions {qr : QR} (hqr : ValidQR qr) {m : ModelDict ℝ} {k : ℕ} (hm : LinearModel m k) (hanch : m.anchoring = none ∨ k = 1) (hg : GoodNames m)
    (hkappa : ∀ o x, m.estimationOptions = some o → o.sigmaPointsScale = some x → 0 ≤ x) {val : Loc → ℝ} (hv : ProperValues m k val) (hok : ∃ pm, processModel m = .ok pm) (custom : String → CustomFn) (nan : ℝ) :
    ∃ updates, Enumerates m updates ∧ (updates.map Prod.fst).Pairwise (· ≤ ·) ∧
      ∃ density : Covariates → (Fin updates.length → ℝ) → Fin updates.length → ℝ,
      (∀ cov y j, 0 < density cov y j) ∧
      (∀ cov, Continuous (density cov)) ∧
      (∀ cov y y' j, y j = y' j → (∀ i, i < j → IsMeasurement m (updates.get i).1 (updates.get i).2 → y i = y' i) → density cov y j = density cov y' j) ∧
      (∀ (cov : Covariates) {Ω : Type} [MeasurableSpace Ω] (P : Measure Ω) [IsProbabilityMeasure P] (E : Ω → Fin k) (Z : Noise → Ω → ℝ), RandomNoise P val E Z →
          ∀ j : Fin updates.length, cov.isObserved (updates.get j).1 (updates.get j).2 = true →
          let y := fun ω => measurementValue m val cov (E ω) (fun a => Z a ω)
          let past := fun ω => observedData updates (cov.only (EarlierMeasurement m updates j)) (y ω)
          ∀ B, MeasurableSet B → P⟦(fun ω => y ω (updates.get j).1 (updates.get j).2) ⁻¹' B | MeasurableSpace.comap past inferInstance⟧ =ᵐ[P] fun ω => ∫ x in B, density cov (Function.update (past ω) j x) j) ∧
      ∀ (df : LongData ℝ) (ids pers : List Int) (params : List (Loc × ℝ)) (inputs : MaximizationInputs) (out : DebugData), IndexOk df → NoUnusedPeriods df → IdsOf df ids → PeriodsOf df pers →
        (params.map Prod.fst).Nodup → (∀ l x, (l, x) ∈ params → x = val l) → getMaximizationInputs m df = .ok inputs → inputs.debugLoglike qr custom nan m params = .ok out →
        out.allContributions.length = updates.length * ids.length ∧
        ∀ (j : Fin updates.length) (i : Nat) (cov : Covariates) (y : Nat → String → ℝ), i < ids.length → Describes m df ids pers i cov y →
          out.allContributions[j * ids.length + i]? =
            some ⟨if cov.isObserved (updates.get j).1 (updates.get j).2 then Real.log (density cov (observedData updates cov y) j) else 0, (updates.get j).2, (updates.get j).1, i⟩ := by
  classical
  obtain ⟨pm, hpm⟩ := hok
  obtain ⟨nT, hT⟩ : ∃ nT, pm.dimensions.nPeriods = nT + 2 := ⟨pm.dimensions.nPeriods - 2, by have := (isPeriod_iff hpm 1).mp hm.periods; omega⟩
  obtain ⟨hu1, hu2, hsorted, _⟩ := C01_update_info_exact hpm
  have hen := updateList_enumerates hpm
  refine ⟨updateList pm, hen, ?_, condDensity custom m pm nT val, ?_, ?_, ?_, ?_, ?_⟩
  · rw [List.map_map]
    exact List.pairwise_map.mpr hsorted
  · exact fun cov y j => div_pos (covDensity_pos hm hv hpm nT custom _ _) (covDensity_pos hm hv hpm nT custom _ _)
  · intro cov
    refine continuous_pi (fun j => ?_)
    unfold condDensity
    exact ((continuous_valuesDensity hpm hm hg custom _).comp (continuous_maskData _ _)).div ((continuous_valuesDensity hpm hm hg custom _).comp (continuous_maskData _ _))
      (fun y => (covDensity_pos hm hv hpm nT custom _ _).ne')
  · intro cov y y' j hj h
    have key : ∀ p : Nat → String → Prop, (∀ t v, p t v → UpTo m (updateList pm) j t v) → maskData (updateList pm) (cov.only p) y = maskData (updateList pm) (cov.only p) y' := by
      intro p hp
      funext a
      unfold maskData
      split_ifs with ho
      · rcases hp _ _ ((only_observed _ _ _ _).mp ho).1 with ⟨h1, b, hb, hb'⟩ | h1
        · have : b = a := (List.nodup_iff_injective_get.mp hu1) hb'
          subst this
          exact h b hb h1
        · have : j = a := (List.nodup_iff_injective_get.mp hu1) h1
          subst this
          exact hj
      · rfl
    unfold condDensity
    rw [key _ (fun _ _ => id), key _ (fun _ _ => Or.inl)]
  · intro cov Ω _ P _ E Z hZ j hj y past B hB
    exact label_condDensity hpm hm hg hv hT custom cov hZ j hj hB
  · intro df ids pers params inputs out hi hu hids hpers hn hval hin hdebug
    have hin' := hin
    unfold getMaximizationInputs at hin'
    simp only [py_bind_ok, py_pure_ok] at hin'
    obtain ⟨pm', hpm', info, hinfo, dat, hdat, cs, hcs, hinp⟩ := hin'
    obtain rfl := Except.ok.inj (hpm.symm.trans hpm')
    have hObs := length_controls hpm hm hg hi hu hids hpers hin
    obtain ⟨pm', nT', con, obs, data, r, hpm', hT', hdata, hcon, hobs, hmeas, hr, hpost⟩ := evaluate_explicit hg hm.anchoring.1 hm.anchoring.2.1 hin hn hval hdebug hObs
    obtain rfl := Except.ok.inj (hpm.symm.trans hpm')
    obtain rfl : nT = nT' := by omega
    rw [← hinp] at hpost
    dsimp only at hpost
    obtain ⟨ho, ho2, _⟩ := logLikelihood_ok hr
    have hlenargs : r.outs.length = pm.updateInfo.length := by rw [ho, outs_length, loopArgs_length _ _ (by simp), List.length_map]
    obtain ⟨hlen, hcell⟩ := allContributions_rows (by rw [ho2, List.length_map, hlenargs]) (processDebugData_contributions hpost)
    refine ⟨by rw [hlen, List.length_map], fun j i cov y hil hdesc => ?_⟩
    have hju : j.val < pm.updateInfo.length := by simpa using j.isLt
    have hjo : j.val < r.outs.length := by omega
    have hoj := List.getElem?_eq_getElem hjo
    have h1 := hcell j.val _ (r.outs[j.val]'hjo).loglikes ⟨i, hil⟩ (List.getElem?_eq_getElem hju) (by rw [ho2, List.getElem?_map, hoj]; rfl)
    rw [contribution_condDensity hqr hpm hm hg hkappa hv hanch hT custom nan hi hu hids hpers hdata hcon hobs hmeas hil hdesc j (by rw [← ho]; exact hoj)] at h1
    have hgetj : (updateList pm).get j = (pm.updateInfo[j.val].period, pm.updateInfo[j.val].var) := by
      rw [List.get_eq_getElem, List.getElem_map]
    rw [h1, hgetj]

end Skill
