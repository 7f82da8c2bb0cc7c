import Verif.Lemmas.LazyScan
import Verif.Lemmas.EditedUpdates
import Verif.Lemmas.OneIndividual
import Verif.Props.Pipeline
/-
The contributions of one individual to the likelihood, in terms of names only. With this two models that share the names of factors can be compared.
-/
namespace Skill
open Matrix Spec

/-! ### the filter only depends on the sum of the controls times their parameters -/

section congr
variable {nObs nMix n nT nT' nObserved nC nC' : ℕ} {θ θ' : Type}

theorem scanUpdate_same (qr : QR) (fixed : ScanFixed nObs nT n nObserved nC θ) (fixed' : ScanFixed nObs nT' n nObserved nC' θ') (c : Carry nObs nMix n) {a : LoopArgs nObs n nC} {a' : LoopArgs nObs n nC'}
    (h1 : a.loadings = a'.loadings) (h2 : a.measSd = a'.measSd) (h3 : a.measurements = a'.measurements) (h4 : a.isMeasurement = a'.isMeasurement)
    (h5 : ∀ i, (a.measurements i).isSome = true → ∑ j, fixed.controls (jaxIndex (nT + 1) a.period) i j * a.controlParams j = ∑ j, fixed'.controls (jaxIndex (nT' + 1) a'.period) i j * a'.controlParams j) :
    scanUpdate qr fixed c a = scanUpdate qr fixed' c a' := by
  have hsum : ∀ i, ∑ j, (if (a'.measurements i).isSome = true then fixed.controls (jaxIndex (nT + 1) a.period) i j else 0) * a.controlParams j =
      ∑ j, (if (a'.measurements i).isSome = true then fixed'.controls (jaxIndex (nT' + 1) a'.period) i j else 0) * a'.controlParams j := by
    intro i
    rw [h3] at h5
    cases h : (a'.measurements i).isSome with
    | true => simpa using h5 i h
    | false => simp
  unfold scanUpdate kalmanUpdate
  simp only [h1, h2, h3, h4, hsum]

theorem predictCarry_same (qr : QR) {fixed : ScanFixed nObs nT n nObserved nC θ} {fixed' : ScanFixed nObs nT' n nObserved nC' θ'} (c : Carry nObs nMix n) {t t' : Int}
    (h1 : fixed.func (fixed.transition (jaxIndex nT t)) = fixed'.func (fixed'.transition (jaxIndex nT' t'))) (h2 : fixed.shockSds (jaxIndex nT t) = fixed'.shockSds (jaxIndex nT' t'))
    (h3 : fixed.observed (jaxIndex (nT + 1) t) = fixed'.observed (jaxIndex (nT' + 1) t')) (h4 : fixed.scaling (jaxIndex (nT + 1) t) = fixed'.scaling (jaxIndex (nT' + 1) t'))
    (h5 : fixed.scaling (jaxIndex (nT + 1) (t + 1)) = fixed'.scaling (jaxIndex (nT' + 1) (t' + 1))) (h6 : fixed.constants (jaxIndex (nT + 1) t) = fixed'.constants (jaxIndex (nT' + 1) t'))
    (h7 : fixed.constants (jaxIndex (nT + 1) (t + 1)) = fixed'.constants (jaxIndex (nT' + 1) (t' + 1))) (h8 : fixed.sigmaScalingFactor = fixed'.sigmaScalingFactor) (h9 : fixed.sigmaWeights = fixed'.sigmaWeights) :
    predictCarry qr fixed c t = predictCarry qr fixed' c t' := by
  unfold predictCarry
  rw [h1, h2, h3, h4, h5, h6, h7, h8, h9]

theorem jaxIndex_period {p : ℕ} (h : p < nT + 2) : jaxIndex (nT + 1) (periodIndex (nT + 1) p) = ⟨p, h⟩ := by
  have h1 := jaxIndex_val (k := nT + 1) (t := p) (by omega)
  unfold periodIndex
  split_ifs with hp
  · exact (jaxIndex_last _).trans (Fin.ext (Eq.trans (by rw [hp]) h1))
  · exact Fin.ext h1

end congr

/-! ### the likelihood of one individual in terms of names -/

/-- The inputs of the likelihood function for an individual with control variables `K` and observed factors `F`. -/
noncomputable def nameFixed (custom : String → CustomFn) (m : ModelDict ℝ) (pm : Processed ℝ) (val : Loc → ℝ) (nT n nO nC : ℕ) (K F : ℕ → String → ℝ) : ScanFixed 1 nT n nO nC (Dict (List ℝ)) where
  controls := fun t _ j => K t (conName m j)
  observed := fun t _ j => F t (obsName m j)
  transition := fun t => transParams pm val t
  shockSds := fun t f => val ⟨.shockSds, t, latName m f, "-"⟩
  scaling := fun t f => scalingOf m val t (allName m f)
  constants := fun t f => constantOf m val t (allName m f)
  sigmaScalingFactor := sigmaScalingFactor n pm.estimationOptions.sigmaPointsScale
  sigmaWeights := sigmaWeights n pm.estimationOptions.sigmaPointsScale
  func := fun params states => transitionValues n (allFactors m) (transitionFns custom m) params states

/-- The state before the first update. -/
noncomputable def nameCarry (m : ModelDict ℝ) (val : Loc → ℝ) (nMix n : ℕ) : Carry 1 nMix n where
  states := fun _ e f => val ⟨.initialStates, 0, Spec.mixtureName e, latName m f⟩
  upperChols := fun _ e => of (fun a b => if a ≤ b then val ⟨.initialCholcovs, 0, Spec.mixtureName e, latName m b ++ "-" ++ latName m a⟩ else 0)
  logWeights := fun _ e => Real.log (val ⟨.mixtureWeights, 0, Spec.mixtureName e, "-"⟩)

/-- The parameters of one update. -/
def nameRow (m : ModelDict ℝ) (val : Loc → ℝ) (n nC : ℕ) (r : URow) : UpdateParams n nC where
  period := r.period
  var := r.var
  isMeasurement := decide (r.purpose = .measurement)
  loadings := fun f => if latName m f ∈ r.trueCols then val ⟨.loadings, r.period, r.var, latName m f⟩ else 0
  controlParams := fun c => val ⟨.controls, r.period, r.var, conName m c⟩
  sd := val ⟨.measSds, r.period, r.var, "-"⟩

/-- The predict step after period p. -/
noncomputable def namePred (qr : QR) (custom : String → CustomFn) (m : ModelDict ℝ) (pm : Processed ℝ) (val : Loc → ℝ) (nT n nO nC nMix : ℕ) (K F : ℕ → String → ℝ) (p : ℕ) (c : Carry 1 nMix n) : Carry 1 nMix n :=
  predictCarry qr (nameFixed custom m pm val nT n nO nC K F) c (periodIndex (nT + 1) p)

/-- The update of one row. -/
noncomputable def nameUpd (qr : QR) (custom : String → CustomFn) (m : ModelDict ℝ) (pm : Processed ℝ) (val : Loc → ℝ) (nT n nO nC nMix : ℕ) (K F : ℕ → String → ℝ) (D : URow → Option ℝ) (r : URow) (c : Carry 1 nMix n) :
    Carry 1 nMix n × StepOut 1 nMix n :=
  updOf qr (nameFixed custom m pm val nT n nO nC K F) (nT + 1) (nameRow m val n nC r, fun _ => D r) c

/-- The contributions of an individual with measurements `D` to the likelihood. -/
noncomputable def nameRun (qr : QR) (custom : String → CustomFn) (m : ModelDict ℝ) (pm : Processed ℝ) (val : Loc → ℝ) (nT n nO nC nMix : ℕ) (K F : ℕ → String → ℝ) (D : URow → Option ℝ) (p : ℕ) (u : List URow) : List ℝ :=
  (lazyRun URow.period (namePred qr custom m pm val nT n nO nC nMix K F) (nameUpd qr custom m pm val nT n nO nC nMix K F D) p (nameCarry m val nMix n) u).map (fun o => o.loglikes 0)

theorem exists_byName {β : Type} {k : ℕ} {g : Fin k → String} (hg : Function.Injective g) (d : β) (f : Fin k → β) : ∃ F : String → β, ∀ j, F (g j) = f j := by
  classical
  refine ⟨fun s => if h : ∃ j, g j = s then f h.choose else d, fun j => ?_⟩
  have h : ∃ j', g j' = g j := ⟨j, rfl⟩
  dsimp only
  rw [dif_pos h, hg h.choose_spec]

theorem conName_injective {m : ModelDict ℝ} (hg : GoodNames m) : Function.Injective (fun j : Fin (nCon m) => conName m j) := by
  intro a b h
  have ha := nodup_get? hg.controls (conName_get a)
  have hb := nodup_get? hg.controls (conName_get b)
  dsimp only at h
  rw [h, hb] at ha
  exact Fin.ext ha.symm

theorem obsName_injective {m : ModelDict ℝ} (hg : GoodNames m) : Function.Injective (fun j : Fin (nObsd m) => obsName m j) := by
  intro a b h
  have hn : (m.observedFactors.getD []).Nodup := (List.nodup_append.mp hg.distinct).2.1
  have ha := nodup_get? hn (obsName_get a)
  have hb := nodup_get? hn (obsName_get b)
  dsimp only at h
  rw [h, hb] at ha
  exact Fin.ext ha.symm

/-- What the value of a variable is in the arrays for the likelihood function. -/
def Entry (m : ModelDict ℝ) (df : LongData ℝ) (ids pers : List Int) (i t : ℕ) (c : String) (w : Option ℝ) : Prop := ∃ r v, RowOf df ids pers i t r ∧ ValueIs m r c v ∧ Kept m r t v w

/-- The contributions of an individual to the likelihood are computed from its data, in terms of names. -/
theorem name_run (qr : QR) {m : ModelDict ℝ} {pm : Processed ℝ} (hpm : processModel m = .ok pm) (hg : GoodNames m) (hc : CleanAnchoring m) (ho : SameOrder m) (hclash : NoNameClash m) (hper : IsPeriod m 1)
    {nT : ℕ} (hT : pm.dimensions.nPeriods = nT + 2) (custom : String → CustomFn) (nan : ℝ) {val : Loc → ℝ} {df : LongData ℝ} {ids pers : List Int} {inputs : MaximizationInputs} {params : List (Loc × ℝ)} {out : LoglikeOutput}
    (hi : IndexOk df) (hu : NoUnusedPeriods df) (hids : IdsOf df ids) (hpers : PeriodsOf df pers) (hn : (params.map Prod.fst).Nodup) (hval : ∀ l x, (l, x) ∈ params → x = val l) (hin : getMaximizationInputs m df = .ok inputs)
    (hout : inputs.loglike qr custom nan m params = .ok out) {i : ℕ} (hil : i < ids.length) :
    ∃ (K F : ℕ → String → ℝ) (D : URow → Option ℝ), (∀ t < nT + 2, ∀ c ∈ "constant" :: m.controls.getD [], ∃ w, Entry m df ids pers i t c w ∧ K t c = w.getD nan) ∧
      (∀ t < nT + 2, ∀ f ∈ m.observedFactors.getD [], ∃ w, Entry m df ids pers i t f w ∧ F t f = w.getD nan) ∧ (∀ r ∈ pm.updateInfo, Entry m df ids pers i r.period r.var (D r)) ∧
      ∀ p, (∀ r ∈ pm.updateInfo.head?, r.period ≠ p + 1) →
        out.allContributions.map (fun row => row.getD i 0) = nameRun qr custom m pm val nT (nLat m) (nObsd m) (nCon m) pm.dimensions.nMixtures K F D p pm.updateInfo ∧ (∀ row ∈ out.allContributions, row.length = ids.length) := by
  have hObs := length_of_controls hpm hper hclash hg hi hu hids hpers hin
  obtain ⟨pm', nT', con, obs, data, r, hpm', hT', hdata, hcon, hobs, hmeas, hr, hpost⟩ := evaluate_explicit hg hc ho hin hn hval hout hObs
  obtain rfl := Except.ok.inj (hpm.symm.trans hpm')
  obtain rfl := Except.ok.inj hpost
  obtain rfl : nT = nT' := by omega
  obtain ⟨h1, h2, _, _⟩ := logLikelihood_ok hr
  have hrange := updates_in_range hpm hT
  obtain ⟨meas, hmeas', _, _, _, hdat⟩ := C27_data_arrays hpm hg.keys hclash hi hu hids hpers hdata
  rw [hmeas', Option.getD_some] at hmeas
  have hP : ∀ t < nT + 2, IsPeriod m t := fun t ht => (isPeriod_iff hpm t).mpr (by omega)
  -- controls and observed factors by name
  have hK : ∀ t : ℕ, ∃ K : String → ℝ, ∀ (ht : t < nT + 2) (j : Fin (nCon m)), K (conName m j) = con ⟨t, ht⟩ ⟨i, hil⟩ j := fun t => by
    by_cases ht : t < nT + 2
    · obtain ⟨K, hK⟩ := exists_byName (conName_injective hg) 0 (con ⟨t, ht⟩ ⟨i, hil⟩)
      exact ⟨K, fun _ => hK⟩
    · exact ⟨fun _ => 0, fun h => absurd h ht⟩
  have hF : ∀ t : ℕ, ∃ F : String → ℝ, ∀ (ht : t < nT + 2) (j : Fin (nObsd m)), F (obsName m j) = obs ⟨t, ht⟩ ⟨i, hil⟩ j := fun t => by
    by_cases ht : t < nT + 2
    · obtain ⟨F, hF⟩ := exists_byName (obsName_injective hg) 0 (obs ⟨t, ht⟩ ⟨i, hil⟩)
      exact ⟨F, fun _ => hF⟩
    · exact ⟨fun _ => 0, fun h => absurd h ht⟩
  choose K hK using hK
  choose F hF using hF
  have hnd : pm.updateInfo.Nodup := List.Nodup.of_map _ (C01_update_info_exact hpm).1
  obtain ⟨D, hD⟩ : ∃ D : URow → Option ℝ, ∀ k : Fin pm.updateInfo.length, D pm.updateInfo[k] = data k ⟨i, hil⟩ := by
    classical
    refine ⟨fun s => if h : ∃ k : Fin pm.updateInfo.length, pm.updateInfo[k] = s then data h.choose ⟨i, hil⟩ else none, fun k => ?_⟩
    have h : ∃ k' : Fin pm.updateInfo.length, pm.updateInfo[k'] = pm.updateInfo[k] := ⟨k, rfl⟩
    dsimp only
    rw [dif_pos h]
    congr 1
    exact Fin.ext (hnd.getElem_inj_iff.mp h.choose_spec)
  refine ⟨K, F, D, fun t ht c hc' => ?_, fun t ht f hf => ?_, fun r hr' => ?_, fun p hp => ?_⟩
  · obtain ⟨j, hj, rfl⟩ := List.mem_iff_getElem.mp hc'
    have hj' : j < nCon m := by simpa using hj
    have hname : conName m j = ("constant" :: m.controls.getD [])[j] := Option.some.inj ((conName_get (m := m) ⟨j, hj'⟩).symm.trans (List.getElem?_eq_getElem hj))
    obtain ⟨r', hr'⟩ := exists_rowOf df ids pers t hil
    obtain ⟨v, hv⟩ := exists_valueIs m r' ("constant" :: m.controls.getD [])[j]
    obtain ⟨w, hw, hk⟩ := (hdat i t r' hil (hP t ht) hr').2.1 j _ v (List.getElem?_eq_getElem hj) hv
    obtain ⟨w', hw', hc''⟩ := hcon ⟨t, ht⟩ ⟨i, hil⟩ ⟨j, hj'⟩
    obtain rfl := Option.some.inj (hw.symm.trans hw')
    exact ⟨w, ⟨r', v, hr', hv, hk⟩, by rw [← hname, hK t ht ⟨j, hj'⟩, hc'']⟩
  · obtain ⟨j, hj, rfl⟩ := List.mem_iff_getElem.mp hf
    have hname : obsName m j = (m.observedFactors.getD [])[j] := Option.some.inj ((obsName_get (m := m) ⟨j, hj⟩).symm.trans (List.getElem?_eq_getElem hj))
    obtain ⟨r', hr'⟩ := exists_rowOf df ids pers t hil
    obtain ⟨v, hv⟩ := exists_valueIs m r' (m.observedFactors.getD [])[j]
    obtain ⟨w, hw, hk⟩ := (hdat i t r' hil (hP t ht) hr').2.2 j _ v (List.getElem?_eq_getElem hj) hv
    obtain ⟨w', hw', hc''⟩ := hobs ⟨t, ht⟩ ⟨i, hil⟩ ⟨j, hj⟩
    obtain rfl := Option.some.inj (hw.symm.trans hw')
    exact ⟨w, ⟨r', v, hr', hv, hk⟩, by rw [← hname, hF t ht ⟨j, hj⟩, hc'']⟩
  · obtain ⟨k, hk, rfl⟩ := List.mem_iff_getElem.mp hr'
    have ht := hrange _ (List.getElem_mem hk)
    obtain ⟨r', hr'⟩ := exists_rowOf df ids pers pm.updateInfo[k].period hil
    obtain ⟨v, hv⟩ := exists_valueIs m r' pm.updateInfo[k].var
    obtain ⟨w, hw, hkept⟩ := (hdat i _ r' hil (hP _ ht) hr').1 k _ v (List.getElem?_eq_getElem hk) rfl hv
    have := Option.some.inj (hw.symm.trans (hmeas ⟨k, hk⟩ ⟨i, hil⟩))
    refine ⟨r', v, hr', hv, ?_⟩
    rw [show D pm.updateInfo[k] = data ⟨k, hk⟩ ⟨i, hil⟩ from hD ⟨k, hk⟩, ← this]
    exact hkept
  · unfold LoglikeResult.output
    dsimp only
    refine ⟨?_, fun row hrow => ?_⟩
    swap
    · obtain ⟨f, _, rfl⟩ := List.mem_map.mp hrow
      exact List.length_ofFn
    have hrows : ((r.allContributions.map List.ofFn).map (fun row => row.getD i 0)) = r.outs.map (fun o => o.loglikes ⟨i, hil⟩) := by
      rw [h2, List.map_map, List.map_map]
      refine List.map_congr_left (fun o _ => ?_)
      simp only [Function.comp, List.getD_eq_getElem?_getD, List.getElem?_ofFn, dif_pos hil, Option.getD_some]
    rw [hrows, h1]
    set as : List (UpdateParams (nLat m) (nCon m) × (Fin 1 → Option ℝ)) := pm.updateInfo.map (fun r => (nameRow m val (nLat m) (nCon m) r, fun _ => D r)) with has
    have hfst : as.map Prod.fst = pm.updateInfo.map (labelRow m val) := by
      rw [has, List.map_map]
      rfl
    have hsnd : as.map Prod.snd = pm.updateInfo.map (fun r _ => D r) := by
      rw [has, List.map_map]
      rfl
    have hl1 : (loopArgs (nT + 1) (pm.updateInfo.map (labelRow m val)) (List.ofFn data)).length = pm.updateInfo.length := by rw [loopArgs_length _ _ (by simp), List.length_map]
    have hl2 : (loopArgs (nT + 1) (pm.updateInfo.map (labelRow m val)) (pm.updateInfo.map (fun r (_ : Fin 1) => D r))).length = pm.updateInfo.length := by rw [loopArgs_length _ _ (by simp), List.length_map]
    have hrow : ∀ (j : ℕ) (hj : j < pm.updateInfo.length), (pm.updateInfo.map (labelRow m val))[j]? = some (labelRow m val pm.updateInfo[j]) := fun j hj => by
      rw [List.getElem?_map, List.getElem?_eq_getElem hj]; rfl
    have hget1 := fun (j : ℕ) (hj : j < pm.updateInfo.length) => Option.some.inj ((List.getElem?_eq_getElem (hl1.symm ▸ hj)).symm.trans
      (loopArgs_get (nT + 1) (hrow j hj) (data := List.ofFn data) (y := data ⟨j, hj⟩) (by rw [List.getElem?_ofFn, dif_pos hj])))
    have hget2 := fun (j : ℕ) (hj : j < pm.updateInfo.length) => Option.some.inj ((List.getElem?_eq_getElem (hl2.symm ▸ hj)).symm.trans
      (loopArgs_get (nT + 1) (hrow j hj) (data := pm.updateInfo.map (fun r (_ : Fin 1) => D r)) (y := fun _ => D pm.updateInfo[j]) (by rw [List.getElem?_map, List.getElem?_eq_getElem hj]; rfl)))
    have hagree : List.Forall₂ (AgreeArgs (⟨i, hil⟩ : Fin ids.length) (0 : Fin 1) (labelFixed custom m pm val ids.length nT con obs) (nameFixed custom m pm val nT (nLat m) (nObsd m) (nCon m) K F))
        (loopArgs (nT + 1) (pm.updateInfo.map (labelRow m val)) (List.ofFn data)) (loopArgs (nT + 1) (pm.updateInfo.map (labelRow m val)) (pm.updateInfo.map (fun r (_ : Fin 1) => D r))) := by
      refine List.forall₂_iff_get.mpr ⟨by rw [hl1, hl2], fun j h h' => ?_⟩
      have hj : j < pm.updateInfo.length := by rw [hl1] at h; exact h
      rw [List.get_eq_getElem, List.get_eq_getElem, hget1 j hj, hget2 j hj]
      refine ⟨rfl, rfl, rfl, rfl, rfl, rfl, (hD ⟨j, hj⟩).symm, fun _ => ?_⟩
      funext c
      exact (hK _ _ c).symm
    have hcontr := outs_agree qr (i := (⟨i, hil⟩ : Fin ids.length)) (i' := (0 : Fin 1)) (fixed := labelFixed custom m pm val ids.length nT con obs) (fixed' := nameFixed custom m pm val nT (nLat m) (nObsd m) (nCon m) K F)
      ⟨fun t => funext (fun f => (hF t t.isLt f).symm), rfl, rfl, rfl, rfl, rfl, rfl, rfl⟩ hagree (c := labelCarry m val ids.length pm.dimensions.nMixtures) (c' := nameCarry m val pm.dimensions.nMixtures (nLat m))
      ⟨rfl, rfl, rfl⟩
    rw [hcontr, ← hfst, ← hsnd, outs_lazy qr _ (nT + 1) _ p as]
    · unfold nameRun
      congr 1
      symm
      refine lazyRun_congr (N := nT + 2) (fun _ _ _ => rfl) ?_ _ _
      rw [has, List.forall₂_map_right_iff, List.forall₂_same]
      exact fun r hr => ⟨rfl, hrange r hr, fun _ => rfl⟩
    · intro a ha
      rw [has, List.head?_map] at ha
      obtain ⟨r, hr, rfl⟩ := Option.mem_map.mp ha
      exact hp r hr

end Skill
