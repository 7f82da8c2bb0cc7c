import Verif.Props.Pipeline
import Verif.Lemmas.OneIndividual
/-
C100: the likelihood is a probability density for arbitrary transition functions.
-/
namespace Skill
open Matrix MeasureTheory Spec

theorem fill_get {n nC : ℕ} (as : List (LoopArgs 1 n nC)) (o : ℕ → Bool) (y : ℕ → ℝ) (j : ℕ) : (fill as o y)[j]? = (as[j]?).map (fun a => a.fill (o j) (y j)) := by
  induction as generalizing o y j with
  | nil => rfl
  | cons a as ih =>
    cases j with
    | zero => rfl
    | succ j => rw [fill, List.getElem?_cons_succ, List.getElem?_cons_succ, ih]

/-- Which updates are observed. -/
def observedAt (updates : List (Nat × String)) (cov : Covariates) (j : ℕ) : Bool := if h : j < updates.length then cov.isObserved updates[j].1 updates[j].2 else false

theorem observedAt_get (updates : List (Nat × String)) (cov : Covariates) (j : Fin updates.length) : observedAt updates cov j = cov.isObserved (updates.get j).1 (updates.get j).2 := dif_pos j.isLt

/-- The arguments of the steps of the filter for one individual, without data. -/
def emptyArgs (m : ModelDict ℝ) (pm : Processed ℝ) (val : Loc → ℝ) (nT : ℕ) : List (LoopArgs 1 (nLat m) (nCon m)) :=
  loopArgs (nT + 1) (pm.updateInfo.map (labelRow m val)) (pm.updateInfo.map (fun _ _ => none))

/-- The likelihood of one individual. -/
noncomputable def oneDensity (qr : QR) (custom : String → CustomFn) (m : ModelDict ℝ) (pm : Processed ℝ) (nT : ℕ) (updates : List (Nat × String)) (val : Loc → ℝ) (cov : Covariates) (y : Fin updates.length → ℝ) : ℝ :=
  Real.exp (logSum qr (covFixed custom m pm val nT cov) (labelCarry m val 1 pm.dimensions.nMixtures) (emptyArgs m pm val nT) (observedAt updates cov) (extend y))

theorem emptyArgs_length (m : ModelDict ℝ) (pm : Processed ℝ) (val : Loc → ℝ) (nT : ℕ) : (emptyArgs m pm val nT).length = pm.updateInfo.length := by
  rw [emptyArgs, loopArgs_length _ _ (by simp), List.length_map]

theorem oneDensity_sequential {qr : QR} (hqr : ValidQR qr) (custom : String → CustomFn) {m : ModelDict ℝ} {pm : Processed ℝ} (hpm : processModel m = .ok pm) (nT : ℕ) {val : Loc → ℝ} (hv : ProperValues m pm.dimensions.nMixtures val) :
    SequentialDensity (pm.updateInfo.map (fun r => (r.period, r.var))) (oneDensity qr custom m pm nT (pm.updateInfo.map (fun r => (r.period, r.var))) val) := by
  have hnd := (C01_update_info_exact hpm).1
  set updates := pm.updateInfo.map (fun r => (r.period, r.var)) with hup
  have hlen : (emptyArgs m pm val nT).length = updates.length := by rw [emptyArgs_length, hup, List.length_map]
  have hsd : ∀ a ∈ emptyArgs m pm val nT, a.measSd ≠ 0 := rows_sd hv hpm (by simp)
  have hw : WeightsOk (labelCarry m val 1 pm.dimensions.nMixtures).logWeights := fun i => by
    simp_rw [weights_label hv 1 i]
    exact hv.sum
  refine ⟨fun cov y => Real.exp_pos _, ?_, ?_, ?_, ?_⟩
  · intro cov y y' h
    unfold oneDensity logSum
    rw [fill_congr _ (y' := extend y')]
    intro j hj ho
    rw [hlen] at hj
    unfold extend
    rw [dif_pos hj, dif_pos hj]
    exact h ⟨j, hj⟩ (by rw [← observedAt_get]; exact ho)
  · intro cov y h
    unfold oneDensity
    rw [logSum_missing _ _ _ _ (fun j hj => ?_), Real.exp_zero]
    rw [hlen] at hj
    exact (observedAt_get updates cov ⟨j, hj⟩).trans (h _)
  · intro cov y J hJ hlast
    have hext : ∀ x, extend (Function.update y J x) = Function.update (extend y) J x := by
      intro x
      funext j
      unfold extend
      by_cases hj : j = J
      · subst hj
        rw [dif_pos J.isLt, Function.update_self, Function.update_self]
      · rw [Function.update_of_ne hj]
        by_cases h : j < updates.length
        · rw [dif_pos h, dif_pos h, Function.update_of_ne (fun h' => hj (congrArg Fin.val h'))]
        · rw [dif_neg h, dif_neg h]
    have hobs : observedAt updates (cov.without (updates.get J)) = Function.update (observedAt updates cov) J false := by
      funext j
      by_cases hj : j = J
      · subst hj
        rw [Function.update_self, observedAt_get]
        unfold Covariates.without Covariates.only
        simp
      · rw [Function.update_of_ne hj]
        unfold observedAt
        by_cases h : j < updates.length
        · rw [dif_pos h, dif_pos h]
          have hne : (updates[j].1, updates[j].2) ≠ updates.get J := fun h' => hj ((List.getElem_inj (h₀ := h) (h₁ := J.isLt) hnd).mp h')
          unfold Covariates.without Covariates.only
          simp only [hne, ne_eq, not_false_eq_true, decide_true, Bool.true_and]
        · rw [dif_neg h, dif_neg h]
    unfold oneDensity
    simp_rw [hext, hobs]
    have hfix : covFixed custom m pm val nT (cov.without (updates.get J)) = covFixed custom m pm val nT cov := rfl
    rw [hfix]
    exact last_marginal hqr _ hsd hw _ _ (by rw [hlen]; exact J.isLt) (by rw [observedAt_get]; exact hJ) (fun j h1 h2 => by
      rw [hlen] at h2
      exact (observedAt_get updates cov ⟨j, h2⟩).trans (hlast ⟨j, h2⟩ h1))
  · intro cov
    have := total_mass hqr (covFixed custom m pm val nT cov) hsd hw (observedAt updates cov) hlen
    simp_rw [observedAt_get] at this
    exact this

/-- What the likelihood function computes for an individual of a dataset is the likelihood of one individual with its covariates. -/
theorem oneDensity_loglike (qr : QR) {m : ModelDict ℝ} {pm : Processed ℝ} (hpm : processModel m = .ok pm) (hg : GoodNames m) (hc : CleanAnchoring m) (ho : SameOrder m) (hclash : NoNameClash m) (hper : IsPeriod m 1)
    {nT : ℕ} (hT : pm.dimensions.nPeriods = nT + 2) (custom : String → CustomFn) (nan : ℝ) {val : Loc → ℝ} {df : LongData ℝ} {ids pers : List Int} {inputs : MaximizationInputs} {params : List (Loc × ℝ)} {out : LoglikeOutput}
    (hi : IndexOk df) (hu : NoUnusedPeriods df) (hids : IdsOf df ids) (hpers : PeriodsOf df pers) (hn : (params.map Prod.fst).Nodup) (hval : ∀ l x, (l, x) ∈ params → x = val l) (hin : getMaximizationInputs m df = .ok inputs)
    (hout : inputs.loglike qr custom nan m params = .ok out) {i : ℕ} {cov : Covariates} {y : Nat → String → ℝ} (hil : i < ids.length) (hdesc : Describes m df ids pers i cov y) :
    (out.allContributions.map (fun row => row.getD i 0)).sum =
      Real.log (oneDensity qr custom m pm nT (pm.updateInfo.map (fun r => (r.period, r.var))) val cov (observedData (pm.updateInfo.map (fun r => (r.period, r.var))) cov y)) ∧
    (NoClipping m → out.contributions.getD i 0 = (out.allContributions.map (fun row => row.getD i 0)).sum) ∧ out.contributions.length = ids.length ∧ out.value = out.contributions.sum := by
  have hObs := length_of_controls hpm hper hclash hg hi hu hids hpers hin
  obtain ⟨pm', nT', con, obs, data, r, hpm', hT', hdata, hcon, hobs, hmeas, hr, hpost⟩ := evaluate_explicit hg hc ho hin hn hval hout hObs
  obtain rfl := Except.ok.inj (hpm.symm.trans hpm')
  obtain rfl := Except.ok.inj hpost
  obtain rfl : nT = nT' := by omega
  obtain ⟨h1, h2, h3, h4⟩ := logLikelihood_ok hr
  have hrange := updates_in_range hpm hT
  obtain ⟨hD, hF⟩ := individual_data hclash hg hpm hT nan hi hu hids hpers hdata hcon hobs hmeas hil hdesc hrange
  set updates := pm.updateInfo.map (fun r => (r.period, r.var)) with hup
  have hrow : ∀ (j : ℕ) (hj : j < pm.updateInfo.length), (pm.updateInfo.map (labelRow m val))[j]? = some (labelRow m val pm.updateInfo[j]) := fun j hj => by
    rw [List.getElem?_map, List.getElem?_eq_getElem hj]; rfl
  have hl1 : (loopArgs (nT + 1) (pm.updateInfo.map (labelRow m val)) (List.ofFn data)).length = pm.updateInfo.length := by rw [loopArgs_length _ _ (by simp), List.length_map]
  have hl2 : (fill (emptyArgs m pm val nT) (observedAt updates cov) (extend (observedData updates cov y))).length = pm.updateInfo.length := by
    rw [← emptyArgs_length m pm val nT]
    generalize emptyArgs m pm val nT = as
    generalize observedAt updates cov = o
    generalize extend (observedData updates cov y) = z
    induction as generalizing o z with
    | nil => rfl
    | cons a as ih => rw [fill, List.length_cons, List.length_cons, ih]
  have hget1 := fun (j : ℕ) (hj : j < pm.updateInfo.length) => Option.some.inj ((List.getElem?_eq_getElem (hl1.symm ▸ hj)).symm.trans
    (loopArgs_get (nT + 1) (hrow j hj) (data := List.ofFn data) (y := data ⟨j, hj⟩) (by rw [List.getElem?_ofFn, dif_pos hj])))
  have hget2 := fun (j : ℕ) (hj : j < pm.updateInfo.length) => Option.some.inj ((List.getElem?_eq_getElem (hl2.symm ▸ hj)).symm.trans ((fill_get _ _ _ j).trans
    (congrArg (Option.map _) (loopArgs_get (nT + 1) (hrow j hj) (data := pm.updateInfo.map (fun _ _ => none)) (y := fun _ : Fin 1 => none) (by rw [List.getElem?_map, List.getElem?_eq_getElem hj]; rfl)))))
  have hagree : List.Forall₂ (AgreeArgs (⟨i, hil⟩ : Fin ids.length) (0 : Fin 1) (labelFixed custom m pm val ids.length nT con obs) (covFixed custom m pm val nT cov))
      (loopArgs (nT + 1) (pm.updateInfo.map (labelRow m val)) (List.ofFn data)) (fill (emptyArgs m pm val nT) (observedAt updates cov) (extend (observedData updates cov y))) := by
    refine List.forall₂_iff_get.mpr ⟨by rw [hl1, hl2], fun j h h' => ?_⟩
    have hj : j < pm.updateInfo.length := by rw [hl1] at h; exact h
    have hju : j < updates.length := by rw [hup, List.length_map]; exact hj
    have h2' := hget2 j hj
    change (fill (emptyArgs m pm val nT) (observedAt updates cov) (extend (observedData updates cov y)))[j] = _ at h2'
    rw [List.get_eq_getElem, List.get_eq_getElem, hget1 j hj, h2']
    obtain ⟨d1, d2, d3⟩ := hD j hj
    have hpc : jaxIndex (nT + 1) (if pm.updateInfo[j].period = nT + 1 then -1 else (pm.updateInfo[j].period : Int)) = ⟨pm.updateInfo[j].period, hrange _ (List.getElem_mem hj)⟩ := by
      have h1 := jaxIndex_val (k := nT + 1) (t := pm.updateInfo[j].period) (by have := hrange _ (List.getElem_mem hj); omega)
      split_ifs with hp
      · exact (jaxIndex_last _).trans (Fin.ext (Eq.trans (by rw [hp]) h1))
      · exact Fin.ext h1
    refine ⟨rfl, rfl, rfl, rfl, rfl, rfl, ?_, fun hsome => ?_⟩
    · show data ⟨j, hj⟩ ⟨i, hil⟩ = if observedAt updates cov j = true then some (extend (observedData updates cov y) j) else none
      have hg : updates.get ⟨j, hju⟩ = (pm.updateInfo[j].period, pm.updateInfo[j].var) := List.getElem_map _
      have hob : observedAt updates cov j = (data ⟨j, hj⟩ ⟨i, hil⟩).isSome := by rw [← d1, observedAt_get updates cov ⟨j, hju⟩, hg]
      rw [hob]
      cases hd : data ⟨j, hj⟩ ⟨i, hil⟩ with
      | none => rfl
      | some b =>
        rw [Option.isSome_some, if_pos rfl]
        unfold extend observedData
        rw [dif_pos hju, hg, d1, hd, Option.isSome_some, if_pos rfl, d2 b hd]
    · funext c
      show con (jaxIndex (nT + 1) (if pm.updateInfo[j].period = nT + 1 then -1 else (pm.updateInfo[j].period : Int))) ⟨i, hil⟩ c =
        cov.control (jaxIndex (nT + 1) (if pm.updateInfo[j].period = nT + 1 then -1 else (pm.updateInfo[j].period : Int))) (conName m c)
      rw [hpc]
      exact d3 hsome c
  have hsum := outs_agree qr (i := (⟨i, hil⟩ : Fin ids.length)) (i' := (0 : Fin 1)) (fixed := labelFixed custom m pm val ids.length nT con obs) (fixed' := covFixed custom m pm val nT cov)
    ⟨fun t => funext (fun f => hF t f), rfl, rfl, rfl, rfl, rfl, rfl, rfl⟩ hagree (c := labelCarry m val ids.length pm.dimensions.nMixtures) (c' := labelCarry m val 1 pm.dimensions.nMixtures) ⟨rfl, rfl, rfl⟩
  unfold LoglikeResult.output
  dsimp only
  have hrows : ((r.allContributions.map List.ofFn).map (fun row => row.getD i 0)).sum = (r.outs.map (fun o => o.loglikes ⟨i, hil⟩)).sum := by
    rw [h2, List.map_map, List.map_map]
    congr 1
    refine List.map_congr_left (fun o _ => ?_)
    simp only [Function.comp, List.getD_eq_getElem?_getD, List.getElem?_ofFn, dif_pos hil, Option.getD_some]
  refine ⟨?_, ?_, by simp, ?_⟩
  · rw [hrows, h1, hsum]
    unfold oneDensity logSum
    rw [Real.log_exp]
  · rintro ⟨o, ho, hlo, hupb⟩
    have hl : (clipOptions pm.estimationOptions).lower = none ∧ (clipOptions pm.estimationOptions).upper = none := by
      unfold clipOptions
      dsimp only
      rw [(processModel_ok_iff.mp hpm).2.2.2.2.2.1]
      unfold processEstimationOptions
      dsimp only
      rw [ho, Option.getD_some, hlo]
      rcases hupb with h | h <;> rw [h] <;> exact ⟨rfl, rfl⟩
    rw [hrows, List.getD_eq_getElem?_getD, List.getElem?_ofFn, dif_pos hil, Option.getD_some, h3, hl.1, hl.2]
    rfl
  · rw [h4, List.sum_ofFn, list_sum_swap]
    exact Finset.sum_congr rfl (fun i _ => (h3 i).symm)

/-- **C100.** Consider any model dictionary that is accepted, with arbitrary transition functions (also nonlinear and custom ones), with or without anchoring. For all proper parameter values there are probability densities of the
measurements of an individual (see `SequentialDensity`), such that in all datasets the contributions of each individual to the log likelihood (before clipping) add up to the logarithm of the density of its observed measurements. Without
clipping this is the contribution that `loglike` returns. The measurements are in the order of periods.

(The proof does not need that the scale of the sigma points is not negative and that CES functions have finite values, but the model describes the code only in these cases.) -/
theorem C100_likelihood_is_density {qr : QR} (hqr : ValidQR qr) {m : ModelDict ℝ} {pm : Processed ℝ} (hpm : processModel m = .ok pm) {k : ℕ} (hk : HasNMixtures m k) (hg : GoodNames m) (hc : CleanAnchoring m) (ho : SameOrder m)
    (hclash : NoNameClash m) (hper : IsPeriod m 1) (_hkappa : ∀ o x, m.estimationOptions = some o → o.sigmaPointsScale = some x → 0 ≤ x) (custom : String → CustomFn) (nan : ℝ) :
    ∃ updates, Enumerates m updates ∧ updates.Pairwise (fun a b => a.1 ≤ b.1) ∧ ∃ density : (Loc → ℝ) → Covariates → (Fin updates.length → ℝ) → ℝ, ∀ val, ProperValues m k val → FiniteTransitions custom m val →
      SequentialDensity updates (density val) ∧
      ∀ (df : LongData ℝ) (ids pers : List Int) (inputs : MaximizationInputs) (params : List (Loc × ℝ)) (out : LoglikeOutput), IndexOk df → NoUnusedPeriods df → IdsOf df ids → PeriodsOf df pers →
        (params.map Prod.fst).Nodup → (∀ l x, (l, x) ∈ params → x = val l) → getMaximizationInputs m df = .ok inputs → inputs.loglike qr custom nan m params = .ok out →
        ∀ (i : Nat) (cov : Covariates) (y : Nat → String → ℝ), i < ids.length → Describes m df ids pers i cov y →
          (out.allContributions.map (fun row => row.getD i 0)).sum = Real.log (density val cov (observedData updates cov y)) ∧
          (NoClipping m → out.contributions.getD i 0 = Real.log (density val cov (observedData updates cov y))) := by
  obtain ⟨nT, hT⟩ : ∃ nT, pm.dimensions.nPeriods = nT + 2 := ⟨pm.dimensions.nPeriods - 2, by have := (isPeriod_iff hpm 1).mp hper; omega⟩
  obtain rfl : pm.dimensions.nMixtures = k := ((hasNMixtures_of_ok hpm k).mp hk).symm
  obtain ⟨hu1, hu2, hsorted, _⟩ := C01_update_info_exact hpm
  refine ⟨pm.updateInfo.map (fun r => (r.period, r.var)), ⟨hu1, fun t v => ?_⟩, by rw [List.pairwise_map]; exact hsorted, oneDensity qr custom m pm nT _, fun val hv _ => ⟨oneDensity_sequential hqr custom hpm nT hv, ?_⟩⟩
  · rw [← hu2]
    simp [List.mem_map]
  · intro df ids pers inputs params out hi hu hids hpers hn hval hin hout i cov y hil hdesc
    obtain ⟨h1, h2, _⟩ := oneDensity_loglike qr hpm hg hc ho hclash hper hT custom nan hi hu hids hpers hn hval hin hout hil hdesc
    exact ⟨h1, fun h => (h2 h).trans h1⟩

end Skill
