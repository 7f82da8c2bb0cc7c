import Mathlib.Analysis.Calculus.FDeriv.Pi
import Mathlib.Analysis.Calculus.Deriv.Pi
import Verif.Lemmas.SmoothLikelihood
/-
C97, C98: gradient, jacobian and loglike_and_gradient.
-/
namespace Skill
open Spec Filter Topology

/-! ### gradients of functions of the vector of parameters -/

/-- Partial derivatives of a differentiable function of the vector of parameters are a gradient. -/
theorem isGradient_of {index : List Loc} (hn : index.Nodup) {W : List ℝ → ℝ} {val : Loc → ℝ} {p : Fin (index.map val).length → ℝ}
    (hW : DifferentiableAt ℝ (fun x : Fin (index.map val).length → ℝ => W (List.ofFn x)) (index.map val).get)
    (hp : ∀ i, HasDerivAt (fun s => W (List.ofFn (Function.update (index.map val).get i s))) (p i) ((index.map val).get i)) :
    IsGradient index (fun v => W (index.map v)) val (List.ofFn p) := by
  have hlen : (index.map val).length = index.length := by simp
  refine ⟨by simp, fun k l hk => ?_, fun path speed h0 hd => ?_⟩
  · obtain ⟨hlt, hl⟩ := List.getElem?_eq_some_iff.mp hk
    have hlt' : k < (index.map val).length := by rw [hlen]; exact hlt
    have e1 : (List.ofFn p).getD k 0 = p ⟨k, hlt'⟩ := by
      rw [List.getD_eq_getElem?_getD, List.getElem?_ofFn, dif_pos hlt']
      rfl
    have e2 : (index.map val).get ⟨k, hlt'⟩ = val l := by simp [hl]
    have e3 : ∀ s, index.map (Function.update val l s) = List.ofFn (Function.update (index.map val).get ⟨k, hlt'⟩ s) := by
      intro s
      refine List.ext_getElem (by simp) (fun j j1 j2 => ?_)
      rw [List.getElem_map, List.getElem_ofFn]
      have hj : j < index.length := by simpa using j1
      by_cases hjk : j = k
      · subst hjk
        rw [hl, Function.update_self, Function.update_self]
      · rw [Function.update_of_ne, Function.update_of_ne]
        · simp
        · intro h
          exact hjk (Fin.mk.inj_iff.mp h)
        · intro h
          exact hjk ((List.Nodup.getElem_inj_iff hn).mp (h.trans hl.symm))
    have := hp ⟨k, hlt'⟩
    rw [e2] at this
    rw [e1]
    refine this.congr_of_eventuallyEq (Eventually.of_forall (fun s => ?_))
    simp only [e3]
  · obtain ⟨f', hf'⟩ := hW
    have hpi : ∀ i, p i = f' (Pi.single i 1) := by
      intro i
      have h1 : HasDerivAt (fun s => Function.update (index.map val).get i s) (Pi.single i 1) ((index.map val).get i) := hasDerivAt_update _ _ _
      have h2 := HasFDerivAt.comp_hasDerivAt ((index.map val).get i) (f := fun s => Function.update (index.map val).get i s) (by rw [Function.update_eq_self]; exact hf') h1
      exact (hp i).unique h2
    have hpath : HasDerivAt (fun s => fun i : Fin (index.map val).length => path s (index.get (i.cast hlen))) (fun i => speed (index.get (i.cast hlen))) 0 :=
      hasDerivAt_pi.mpr (fun i => hd _ (List.get_mem _ _))
    have hstart : (fun i : Fin (index.map val).length => path 0 (index.get (i.cast hlen))) = (index.map val).get := by
      funext i
      rw [h0]
      simp
    have h3 := HasFDerivAt.comp_hasDerivAt (0 : ℝ) (f := fun s => fun i : Fin (index.map val).length => path s (index.get (i.cast hlen))) (by rw [hstart]; exact hf') hpath
    have e4 : ∀ s, List.ofFn (fun i : Fin (index.map val).length => path s (index.get (i.cast hlen))) = index.map (path s) := by
      intro s
      refine List.ext_getElem (by simp) (fun j j1 j2 => ?_)
      simp
    have e5 : (List.zipWith (fun l d => d * speed l) index (List.ofFn p)).sum = f' (fun i => speed (index.get (i.cast hlen))) := by
      have h4 : List.zipWith (fun l d => d * speed l) index (List.ofFn p) = List.ofFn (fun i : Fin (index.map val).length => p i * speed (index.get (i.cast hlen))) := by
        refine List.ext_getElem (by simp) (fun j j1 j2 => ?_)
        simp
      rw [h4, List.sum_ofFn]
      conv_rhs => rw [pi_eq_sum_univ' (fun i : Fin (index.map val).length => speed (index.get (i.cast hlen))), map_sum]
      refine Finset.sum_congr rfl (fun i _ => ?_)
      rw [map_smul, hpi, smul_eq_mul, mul_comm]
    rw [e5]
    refine h3.congr_of_eventuallyEq (Eventually.of_forall (fun s => ?_))
    simp only [Function.comp, e4]

/-- A function has only one gradient. -/
theorem Spec.IsGradient.unique {index : List Loc} {V : (Loc → ℝ) → ℝ} {val : Loc → ℝ} {g h : List ℝ} (hg : IsGradient index V val g) (hh : IsGradient index V val h) : g = h := by
  refine List.ext_getElem (by rw [hg.length, hh.length]) (fun k k1 k2 => ?_)
  have hk : k < index.length := by rw [← hg.length]; exact k1
  have := (hg.partials k index[k] (List.getElem?_eq_getElem hk)).unique (hh.partials k index[k] (List.getElem?_eq_getElem hk))
  rwa [List.getD_eq_getElem?_getD, List.getD_eq_getElem?_getD, List.getElem?_eq_getElem k1, List.getElem?_eq_getElem k2] at this

/-- The values of the parameters given by a vector. -/
noncomputable def vecValues (index : List Loc) (val : Loc → ℝ) (x : Fin (index.map val).length → ℝ) (l : Loc) : ℝ :=
  if h : index.idxOf l < (index.map val).length then x ⟨index.idxOf l, h⟩ else val l

theorem map_vecValues {index : List Loc} (hn : index.Nodup) (val : Loc → ℝ) (x : Fin (index.map val).length → ℝ) : index.map (vecValues index val x) = List.ofFn x := by
  refine List.ext_getElem (by simp) (fun j j1 j2 => ?_)
  have hj : j < index.length := by simpa using j1
  rw [List.getElem_map, List.getElem_ofFn]
  unfold vecValues
  have e : index.idxOf index[j] = j := hn.idxOf_getElem j hj
  rw [dif_pos (by rw [e]; simpa using hj)]
  congr 1
  exact Fin.ext e

theorem vecValues_self (index : List Loc) (val : Loc → ℝ) : vecValues index val (index.map val).get = val := by
  funext l
  unfold vecValues
  split_ifs with h
  · have h' : index.idxOf l < index.length := by simpa using h
    simp [List.getElem_idxOf h']
  · rfl

theorem vecValues_differentiable (index : List Loc) (val : Loc → ℝ) (x₀ : Fin (index.map val).length → ℝ) (l : Loc) : DifferentiableAt ℝ (fun x => vecValues index val x l) x₀ := by
  unfold vecValues
  split_ifs with h
  · exact differentiableAt_apply _ _
  · exact differentiableAt_const _

/-! ### the likelihood function -/

/-- The output of the likelihood function for the values of the parameters. -/
noncomputable def MaximizationInputs.outputAt (qr : QR) (custom : String → CustomFn) (nan : ℝ) (m : ModelDict ℝ) (inputs : MaximizationInputs) (vec : List ℝ) : LoglikeOutput :=
  match inputs.evaluateVec (fun nObs nMix n r => .ok (LoglikeResult.output nObs nMix n r)) qr custom nan m vec with
  | .ok out => out
  | .error _ => ⟨0, [], []⟩

theorem valueAt_eq (qr : QR) (custom : String → CustomFn) (nan : ℝ) (m : ModelDict ℝ) (inputs : MaximizationInputs) (vec : List ℝ) :
    inputs.valueAt qr custom nan m vec = (inputs.outputAt qr custom nan m vec).value := by
  unfold MaximizationInputs.valueAt MaximizationInputs.outputAt
  cases inputs.evaluateVec (fun nObs nMix n r => .ok (LoglikeResult.output nObs nMix n r)) qr custom nan m vec <;> rfl

section
variable {qr : QR} (hqr : ValidQR qr) {m : ModelDict ℝ} {pm : Processed ℝ} (hpm : processModel m = .ok pm) (hg : GoodNames m) (hc : CleanAnchoring m) (ho : SameOrder m) (hclash : NoNameClash m)
  (hq : ∀ f, IsLatent m f → querySafe f) (hper : IsPeriod m 1) {k : ℕ} (hmix : HasNMixtures m k) (hk : k = 1 ∨ k ≠ 0 ∧ m.observedFactors.getD [] = [])
  (hkappa : ∀ o x, m.estimationOptions = some o → o.sigmaPointsScale = some x → 0 ≤ x)
  {df : LongData ℝ} (hi : IndexOk df) (hu : NoUnusedPeriods df) {ids pers : List Int} (hids : IdsOf df ids) (hpers : PeriodsOf df pers) (hdata : DataOk m df ids pers)
include hqr hpm hg hc ho hclash hq hper hmix hk hkappa hi hu hids hpers hdata

theorem output_smooth : ∃ inputs, getMaximizationInputs m df = .ok inputs ∧ inputs.index = pm.paramsIndex ∧ ∀ (custom : String → CustomFn) (nan : ℝ),
    (∀ val, (∀ fs ∈ m.factors, TransFn.Usable (allFactors m) (fun name => val ⟨.transition, 0, fs.1, name⟩) (transFnOf (custom fs.1) fs.2.transition)) →
      inputs.evaluateVec (fun nObs nMix n r => .ok (LoglikeResult.output nObs nMix n r)) qr custom nan m (pm.paramsIndex.map val) = .ok (inputs.outputAt qr custom nan m (pm.paramsIndex.map val)) ∧
      (inputs.outputAt qr custom nan m (pm.paramsIndex.map val)).contributions.length = ids.length ∧
      (inputs.outputAt qr custom nan m (pm.paramsIndex.map val)).value = (inputs.outputAt qr custom nan m (pm.paramsIndex.map val)).contributions.sum) ∧
    ∀ (E : Type) [NormedAddCommGroup E] [NormedSpace ℝ E] (F : E → Loc → ℝ) (x₀ : E), (∀ l, DifferentiableAt ℝ (fun x => F x l) x₀) → InteriorValues custom m k (F x₀) →
      ∀ i < ids.length, DifferentiableAt ℝ (fun x => (inputs.outputAt qr custom nan m (pm.paramsIndex.map (F x))).contributions.getD i 0) x₀ := by
  obtain ⟨inputs, hin, _, hindex, _, hev⟩ := evaluateVec_succeeds hpm hg hc ho hclash hq hper hmix hk hi hu hids hpers hdata
  refine ⟨inputs, hin, hindex, fun custom nan => ?_⟩
  obtain ⟨nT, con, obs, dat, hT, hr⟩ := hev nan
  have hk0 : pm.dimensions.nMixtures = k := ((hasNMixtures_of_ok hpm k).mp hmix).symm
  have hout : ∀ val, (∀ fs ∈ m.factors, TransFn.Usable (allFactors m) (fun name => val ⟨.transition, 0, fs.1, name⟩) (transFnOf (custom fs.1) fs.2.transition)) →
      ∃ r : LoglikeResult ids.length pm.dimensions.nMixtures (nLat m), logLikelihood qr (labelFixed custom m pm val ids.length nT con obs) (clipOptions pm.estimationOptions)
              (labelCarry m val ids.length pm.dimensions.nMixtures) (loopArgs (nT + 1) (pm.updateInfo.map (labelRow m val)) (List.ofFn dat)) = .ok r ∧
        inputs.evaluateVec (fun nObs nMix n r => .ok (LoglikeResult.output nObs nMix n r)) qr custom nan m (pm.paramsIndex.map val) = .ok (LoglikeResult.output _ _ _ r) ∧
        inputs.outputAt qr custom nan m (pm.paramsIndex.map val) = LoglikeResult.output _ _ _ r := by
    intro val hus
    obtain ⟨r, h1, h2⟩ := hr qr custom val hus
    have h3 := h2 (fun nObs nMix n r => .ok (LoglikeResult.output nObs nMix n r))
    refine ⟨r, h1, h3, ?_⟩
    unfold MaximizationInputs.outputAt
    rw [h3]
  refine ⟨fun val hus => ?_, fun E _ _ F x₀ hF hint i hlt => ?_⟩
  · obtain ⟨r, h1, h2, h3⟩ := hout val hus
    rw [h3]
    refine ⟨h2, by simp [LoglikeResult.output], ?_⟩
    obtain ⟨_, _, h3, h4⟩ := logLikelihood_ok h1
    simp only [LoglikeResult.output]
    rw [h4, List.sum_ofFn, list_sum_swap]
    exact Finset.sum_congr rfl (fun i _ => (h3 i).symm)
  · have hs : 0 ≤ pm.estimationOptions.sigmaPointsScale := (sigma_label hpm hkappa custom (F x₀) ids.length nT con obs).nonneg
    subst hk0
    have hev : (fun x => (inputs.outputAt qr custom nan m (pm.paramsIndex.map (F x))).contributions.getD i 0) =ᶠ[𝓝 x₀] fun x =>
        ((outs qr (labelFixed custom m pm (F x) ids.length nT con obs) (labelCarry m (F x) ids.length pm.dimensions.nMixtures) (loopArgs (nT + 1) (pm.updateInfo.map (labelRow m (F x))) (List.ofFn dat))).map
          (fun o => (fun y => softClipping y (clipOptions pm.estimationOptions).lower (clipOptions pm.estimationOptions).upper (clipOptions pm.estimationOptions).lowerHardness (clipOptions pm.estimationOptions).upperHardness)
            (o.loglikes ⟨i, hlt⟩))).sum := by
      filter_upwards [interior_eventually hpm hF hint] with x hx
      obtain ⟨r, h1, _, h3⟩ := hout (F x) (fun fs hfs => (hx.transition 0 hper fs hfs).usable)
      obtain ⟨a1, _, a3, _⟩ := logLikelihood_ok h1
      rw [h3]
      simp only [LoglikeResult.output]
      rw [List.getD_eq_getElem?_getD, List.getElem?_ofFn, dif_pos hlt, Option.getD_some, a3, a1]
    exact DifferentiableAt.congr_of_eventuallyEq (likelihood_smooth hpm hg hT hqr hs hF hint (List.ofFn dat) (softClipping_differentiable _ _ _ _) ⟨i, hlt⟩) hev

/-- C29 for the likelihood function: at parameters in the interior of the parameter space, the output of `loglike` does not depend on the sign convention of the QR decomposition. The shock standard deviations of factors that are constant
over time may be zero (they have to be, by the constraints). -/
theorem C29_loglike {qr' : QR} (hqr' : ValidQR qr') : ∃ inputs, getMaximizationInputs m df = .ok inputs ∧ ∀ (custom : String → CustomFn) (nan : ℝ) params val, ParamsAre inputs.index params val → InteriorValues custom m k val →
    ∃ out, inputs.loglike qr custom nan m params = .ok out ∧ inputs.loglike qr' custom nan m params = .ok out := by
  obtain ⟨inputs, hin, _, hindex, _, hev⟩ := evaluateVec_succeeds hpm hg hc ho hclash hq hper hmix hk hi hu hids hpers hdata
  refine ⟨inputs, hin, fun custom nan params val hp hint => ?_⟩
  obtain ⟨nT, con, obs, dat, hT, hr⟩ := hev nan
  have hk0 : pm.dimensions.nMixtures = k := ((hasNMixtures_of_ok hpm k).mp hmix).symm
  have hs : 0 ≤ pm.estimationOptions.sigmaPointsScale := (sigma_label hpm hkappa custom val ids.length nT con obs).nonneg
  subst hk0
  obtain ⟨r, h1, h2⟩ := hr qr custom val (fun fs hfs => (hint.transition 0 hper fs hfs).usable)
  obtain ⟨r', h1', h2'⟩ := hr qr' custom val (fun fs hfs => (hint.transition 0 hper fs hfs).usable)
  have hsd : ∀ a ∈ loopArgs (nT + 1) (pm.updateInfo.map (labelRow m val)) (List.ofFn dat), a.measSd ≠ 0 := by
    obtain ⟨_, hup, _⟩ := C01_update_info_exact hpm
    intro a ha
    rw [loopArgs_label] at ha
    obtain ⟨y, hy, rfl⟩ := List.mem_map.mp ha
    exact hint.measSds _ _ ((hup _ _).mp ⟨_, (List.of_mem_zip (List.of_mem_zip hy).1).1, rfl, rfl⟩)
  rw [C29_qr_convention hqr hqr' (labelFixed_regular hpm hg hT hint hs) _ (labelCarry_regular hint) hsd, h1'] at h1
  obtain rfl := Except.ok.inj h1
  refine ⟨LoglikeResult.output _ _ _ r', ?_, ?_⟩
  · unfold MaximizationInputs.loglike MaximizationInputs.evaluate
    rw [paramsVec_ok hp.unique hp.labels hp.values, hindex]
    exact h2 _
  · unfold MaximizationInputs.loglike MaximizationInputs.evaluate
    rw [paramsVec_ok hp.unique hp.labels hp.values, hindex]
    exact h2' _

theorem derivatives_exist : ∃ inputs, getMaximizationInputs m df = .ok inputs ∧ ∀ (custom : String → CustomFn) (nan : ℝ), ∃ L : (Loc → ℝ) → LoglikeOutput,
    (∀ params val, ParamsAre inputs.index params val → (∀ fs ∈ m.factors, TransFn.Usable (allFactors m) (fun name => val ⟨.transition, 0, fs.1, name⟩) (transFnOf (custom fs.1) fs.2.transition)) →
      inputs.loglike qr custom nan m params = .ok (L val)) ∧
    (∀ val, InteriorValues custom m k val → ∃ scores : Nat → List ℝ, ∀ i < ids.length, IsGradient inputs.index (fun v => (L v).contributions.getD i 0) val (scores i)) ∧
    ∀ ad, ValidAD ad → ∀ params val, ParamsAre inputs.index params val → InteriorValues custom m k val → ∃ vec g, getJnpParamsVec params inputs.index = .ok vec ∧
      inputs.differentiate ad qr custom nan m vec = .ok (g, L val) ∧ IsGradient inputs.index (fun v => (L v).value) val g ∧
      ∀ scores : Nat → List ℝ, (∀ i < ids.length, IsGradient inputs.index (fun v => (L v).contributions.getD i 0) val (scores i)) →
        ∀ j, g.getD j 0 = ((List.range ids.length).map (fun i => (scores i).getD j 0)).sum := by
  obtain ⟨inputs, hin, hindex, hsm⟩ := output_smooth hqr hpm hg hc ho hclash hq hper hmix hk hkappa hi hu hids hpers hdata
  have hnodup : pm.paramsIndex.Nodup := C06_index_unique_partial hpm hg
  refine ⟨inputs, hin, fun custom nan => ?_⟩
  obtain ⟨hval, hdiff⟩ := hsm custom nan
  rw [hindex]
  have hus : ∀ val, InteriorValues custom m k val → ∀ fs ∈ m.factors, TransFn.Usable (allFactors m) (fun name => val ⟨.transition, 0, fs.1, name⟩) (transFnOf (custom fs.1) fs.2.transition) :=
    fun val h fs hfs => (h.transition 0 hper fs hfs).usable
  have hvec : ∀ val, InteriorValues custom m k val → ∀ i < ids.length,
      DifferentiableAt ℝ (fun x : Fin (pm.paramsIndex.map val).length → ℝ => (inputs.outputAt qr custom nan m (List.ofFn x)).contributions.getD i 0) (pm.paramsIndex.map val).get := by
    intro val hint i hlt
    have := hdiff _ (vecValues pm.paramsIndex val) (pm.paramsIndex.map val).get (vecValues_differentiable _ _ _) (by rw [vecValues_self]; exact hint) i hlt
    simpa only [map_vecValues hnodup] using this
  have hsum : ∀ val, InteriorValues custom m k val → ∀ᶠ x in 𝓝 (pm.paramsIndex.map val).get, (inputs.outputAt qr custom nan m (List.ofFn x)).value =
      ((List.range ids.length).map (fun i => (inputs.outputAt qr custom nan m (List.ofFn x)).contributions.getD i 0)).sum := by
    intro val hint
    have := interior_eventually hpm (x₀ := (pm.paramsIndex.map val).get) (vecValues_differentiable pm.paramsIndex val _) (by rw [vecValues_self]; exact hint)
    filter_upwards [this] with x hx
    obtain ⟨_, h2, h3⟩ := hval _ (hus _ hx)
    rw [map_vecValues hnodup] at h2 h3
    rw [h3]
    congr 1
    refine List.ext_getElem (by rw [h2, List.length_map, List.length_range]) (fun j j1 j2 => ?_)
    rw [List.getElem_map, List.getElem_range, List.getD_eq_getElem?_getD, List.getElem?_eq_getElem j1, Option.getD_some]
  have hvalue : ∀ val, InteriorValues custom m k val →
      DifferentiableAt ℝ (fun x : Fin (pm.paramsIndex.map val).length → ℝ => inputs.valueAt qr custom nan m (List.ofFn x)) (pm.paramsIndex.map val).get := by
    intro val hint
    refine DifferentiableAt.congr_of_eventuallyEq (diff_list_sum (l := List.range ids.length) (g := fun x i => (inputs.outputAt qr custom nan m (List.ofFn x)).contributions.getD i 0)
      (fun i hlt => hvec val hint i (List.mem_range.mp hlt))) ?_
    filter_upwards [hsum val hint] with x hx
    rw [valueAt_eq, hx]
  refine ⟨fun val => inputs.outputAt qr custom nan m (pm.paramsIndex.map val), fun params val hp husable => ?_, fun val hint => ?_, fun ad had params val hp hint => ?_⟩
  · unfold MaximizationInputs.loglike MaximizationInputs.evaluate
    rw [hindex, paramsVec_ok hp.unique hp.labels hp.values]
    exact (hval val husable).1
  · have : ∀ i, ∃ g, i < ids.length → IsGradient pm.paramsIndex (fun v => (inputs.outputAt qr custom nan m (pm.paramsIndex.map v)).contributions.getD i 0) val g := by
      intro i
      by_cases hlt : i < ids.length
      · obtain ⟨f', hf'⟩ := hvec val hint i hlt
        refine ⟨_, fun _ => isGradient_of hnodup (W := fun l => (inputs.outputAt qr custom nan m l).contributions.getD i 0) (p := fun j => f' (Pi.single j 1)) (hvec val hint i hlt) (fun j => ?_)⟩
        exact HasFDerivAt.comp_hasDerivAt ((pm.paramsIndex.map val).get j) (f := fun s => Function.update (pm.paramsIndex.map val).get j s) (by rw [Function.update_eq_self]; exact hf') (hasDerivAt_update _ _ _)
      · exact ⟨[], fun h => absurd h hlt⟩
    choose scores hscores using this
    exact ⟨scores, hscores⟩
  · have hgrad : IsGradient pm.paramsIndex (fun v => (inputs.outputAt qr custom nan m (pm.paramsIndex.map v)).value) val
        (List.ofFn (ad (pm.paramsIndex.map val).length (fun x => inputs.valueAt qr custom nan m (List.ofFn x)) (pm.paramsIndex.map val).get)) := by
      simp only [← valueAt_eq]
      exact isGradient_of hnodup (W := fun l => inputs.valueAt qr custom nan m l) (hvalue val hint) (had.partials _ _ _ (hvalue val hint))
    refine ⟨_, _, paramsVec_ok hp.unique hp.labels hp.values, ?_, hgrad, fun scores hscores j => ?_⟩
    · unfold MaximizationInputs.differentiate
      rw [(hval val (hus val hint)).1]
      rfl
    · by_cases hj : j < pm.paramsIndex.length
      · have hj' : j < (pm.paramsIndex.map val).length := by simpa using hj
        have h1 := hgrad.partials j _ (List.getElem?_eq_getElem hj)
        have h2 : HasDerivAt (fun s => ((List.range ids.length).map (fun i => (inputs.outputAt qr custom nan m (pm.paramsIndex.map (Function.update val pm.paramsIndex[j] s))).contributions.getD i 0)).sum)
            ((List.range ids.length).map (fun i => (scores i).getD j 0)).sum (val pm.paramsIndex[j]) := by
          have : ∀ l : List ℕ, (∀ i ∈ l, i < ids.length) → HasDerivAt (fun s => (l.map (fun i => (inputs.outputAt qr custom nan m (pm.paramsIndex.map (Function.update val pm.paramsIndex[j] s))).contributions.getD i 0)).sum)
            (l.map (fun i => (scores i).getD j 0)).sum (val pm.paramsIndex[j]) := by
            intro l
            induction l with
            | nil => intro _; exact hasDerivAt_const _ _
            | cons i l ih =>
              intro hl
              simp only [List.map_cons, List.sum_cons]
              exact ((hscores i (hl i (by simp))).partials j _ (List.getElem?_eq_getElem hj)).fun_add (ih (fun i' h' => hl i' (by simp [h'])))
          exact this _ (fun i h => List.mem_range.mp h)
        refine h1.unique (h2.congr_of_eventuallyEq ?_)
        have h3 := interior_eventually hpm (x₀ := val pm.paramsIndex[j]) (F := fun s => Function.update val pm.paramsIndex[j] s) (custom := custom) (k := k) (fun l => by
          by_cases hl : l = pm.paramsIndex[j]
          · subst hl
            simp
          · simp only [Function.update_of_ne hl]
            exact differentiableAt_const _) (by rw [Function.update_eq_self]; exact hint)
        filter_upwards [h3] with s hs
        obtain ⟨_, h2, h3⟩ := hval _ (hus _ hs)
        rw [h3]
        congr 1
        refine List.ext_getElem (by simp [h2]) (fun j j1 j2 => ?_)
        rw [List.getElem_map, List.getElem_range, List.getD_eq_getElem?_getD, List.getElem?_eq_getElem j1, Option.getD_some]
      · have e1 : ∀ g : List ℝ, g.length = pm.paramsIndex.length → g.getD j 0 = 0 := fun g hl => by
          rw [List.getD_eq_getElem?_getD, List.getElem?_eq_none (by omega), Option.getD_none]
        rw [e1 _ hgrad.length]
        symm
        refine List.sum_eq_zero (fun x hx => ?_)
        obtain ⟨i, hi, rfl⟩ := List.mem_map.mp hx
        exact e1 _ (hscores i (List.mem_range.mp hi)).length

/-- C97: with a valid model and valid data, the value and every contribution returned by loglike are differentiable in the parameters, at all parameters in the interior of the parameter space, and `gradient(params)` returns the gradient of
the value: one entry for each parameter, in the order of the parameter index, whatever the order of the rows of `params`. It is the sum of the gradients of the contributions of the individuals. -/
theorem C97_gradient {d : JaxDerivatives} (hd : ValidAD d.grad) : ∃ inputs, getMaximizationInputs m df = .ok inputs ∧ ∀ (custom : String → CustomFn) (nan : ℝ), ∃ L : (Loc → ℝ) → LoglikeOutput,
    (∀ params val, ParamsAre inputs.index params val → (∀ fs ∈ m.factors, TransFn.Usable (allFactors m) (fun name => val ⟨.transition, 0, fs.1, name⟩) (transFnOf (custom fs.1) fs.2.transition)) →
      inputs.loglike qr custom nan m params = .ok (L val)) ∧
    ∀ params val, ParamsAre inputs.index params val → InteriorValues custom m k val → ∃ g, inputs.gradient d qr custom nan m params = .ok g ∧ IsGradient inputs.index (fun v => (L v).value) val g ∧
      ∃ scores : Nat → List ℝ, (∀ i < ids.length, IsGradient inputs.index (fun v => (L v).contributions.getD i 0) val (scores i)) ∧
        ∀ j, g.getD j 0 = ((List.range ids.length).map (fun i => (scores i).getD j 0)).sum := by
  obtain ⟨inputs, hin, h⟩ := derivatives_exist hqr hpm hg hc ho hclash hq hper hmix hk hkappa hi hu hids hpers hdata
  refine ⟨inputs, hin, fun custom nan => ?_⟩
  obtain ⟨L, h1, h2, h3⟩ := h custom nan
  refine ⟨L, h1, fun params val hp hint => ?_⟩
  obtain ⟨vec, g, hvec, hdif, hgrad, hscore⟩ := h3 d.grad hd params val hp hint
  obtain ⟨scores, hs⟩ := h2 val hint
  refine ⟨g, ?_, hgrad, scores, hs, hscore scores hs⟩
  unfold MaximizationInputs.gradient
  rw [hvec]
  simp only [Bind.bind, Except.bind, hdif]
  rfl

/-- C98: for all values of jacobian_type that are supported, `jacobian(params)` returns the same array as `gradient(params)`: it is the derivative of the scalar log likelihood and not the matrix of derivatives of the contributions. -/
theorem C98_jacobian {d : JaxDerivatives} (hd : ValidAD d.grad) (hr : ValidAD d.jacrev) (hf : ValidAD d.jacfwd) {jacobianType : String} (hj : jacobianType ∈ ["jacrev", "jacfwd", "jacobian", "grad"]) :
    ∃ inputs jac, getMaximizationInputsWith d m df jacobianType = .ok (inputs, jac) ∧ getMaximizationInputs m df = .ok inputs ∧ ∀ (custom : String → CustomFn) (nan : ℝ) params val,
      ParamsAre inputs.index params val → InteriorValues custom m k val → ∃ g, inputs.gradient d qr custom nan m params = .ok g ∧ inputs.jacobian jac qr custom nan m params = .ok g := by
  obtain ⟨inputs, hin, h⟩ := derivatives_exist hqr hpm hg hc ho hclash hq hper hmix hk hkappa hi hu hids hpers hdata
  obtain ⟨jac, hjac, hv⟩ : ∃ jac, d.getattr jacobianType = .ok jac ∧ ValidAD jac := by
    simp only [List.mem_cons, List.not_mem_nil, or_false] at hj
    rcases hj with rfl | rfl | rfl | rfl
    · exact ⟨_, rfl, hr⟩
    · exact ⟨_, rfl, hf⟩
    · exact ⟨_, rfl, hr⟩
    · exact ⟨_, rfl, hd⟩
  refine ⟨inputs, jac, ?_, hin, fun custom nan params val hp hint => ?_⟩
  · unfold getMaximizationInputsWith
    rw [hin]
    simp only [Bind.bind, Except.bind, hjac]
    rfl
  · obtain ⟨L, _, _, h3⟩ := h custom nan
    obtain ⟨vec, g, hvec, hdif, hgrad, _⟩ := h3 d.grad hd params val hp hint
    obtain ⟨vec', g', hvec', hdif', hgrad', _⟩ := h3 jac hv params val hp hint
    obtain rfl := hgrad.unique hgrad'
    refine ⟨g, ?_, ?_⟩
    · unfold MaximizationInputs.gradient
      rw [hvec]
      simp only [Bind.bind, Except.bind, hdif]
      rfl
    · unfold MaximizationInputs.jacobian
      rw [hvec']
      simp only [Bind.bind, Except.bind, hdif']
      rfl

end

/-- C98: `loglike_and_gradient(params)` returns the results of `loglike(params)` and `gradient(params)`, for every params. -/
theorem C98_combined (d : JaxDerivatives) (qr : QR) (custom : String → CustomFn) (nan : ℝ) (m : ModelDict ℝ) (inputs : MaximizationInputs) (params : List (Loc × ℝ)) (out : LoglikeOutput) (g : List ℝ) :
    inputs.loglikeAndGradient d qr custom nan m params = .ok (out, g) ↔ inputs.loglike qr custom nan m params = .ok out ∧ inputs.gradient d qr custom nan m params = .ok g := by
  unfold MaximizationInputs.loglikeAndGradient MaximizationInputs.loglike MaximizationInputs.evaluate MaximizationInputs.gradient MaximizationInputs.differentiate
  cases getJnpParamsVec params inputs.index with
  | error e => simp [Bind.bind, Except.bind]
  | ok vec =>
    simp only [Bind.bind, Except.bind]
    cases inputs.evaluateVec (fun nObs nMix n r => .ok (LoglikeResult.output nObs nMix n r)) qr custom nan m vec with
    | error e => simp
    | ok o => simp [Pure.pure, Except.pure]

/-- C98: `gradient`, `jacobian` and `loglike_and_gradient` raise an exception exactly if `loglike` does, and it is the same one. -/
theorem C98_errors (d : JaxDerivatives) (jac : AD) (qr : QR) (custom : String → CustomFn) (nan : ℝ) (m : ModelDict ℝ) (inputs : MaximizationInputs) (params : List (Loc × ℝ)) (e : PyErr) :
    (inputs.gradient d qr custom nan m params = .error e ↔ inputs.loglike qr custom nan m params = .error e) ∧
    (inputs.jacobian jac qr custom nan m params = .error e ↔ inputs.loglike qr custom nan m params = .error e) ∧
    (inputs.loglikeAndGradient d qr custom nan m params = .error e ↔ inputs.loglike qr custom nan m params = .error e) := by
  unfold MaximizationInputs.loglikeAndGradient MaximizationInputs.jacobian MaximizationInputs.loglike MaximizationInputs.evaluate MaximizationInputs.gradient MaximizationInputs.differentiate
  cases getJnpParamsVec params inputs.index with
  | error e => simp [Bind.bind, Except.bind]
  | ok vec =>
    simp only [Bind.bind, Except.bind]
    cases inputs.evaluateVec (fun nObs nMix n r => .ok (LoglikeResult.output nObs nMix n r)) qr custom nan m vec with
    | error e => simp
    | ok o => simp [Pure.pure, Except.pure]

/-- C98: other values of jacobian_type lead to an AttributeError if model and data are valid. -/
theorem C98_unknown_type (d : JaxDerivatives) {m : ModelDict ℝ} {df : LongData ℝ} {inputs : MaximizationInputs} (h : getMaximizationInputs m df = .ok inputs) {jacobianType : String}
    (hj : jacobianType ∉ ["jacrev", "jacfwd", "jacobian", "grad"]) : getMaximizationInputsWith d m df jacobianType = .error .attributeError := by
  simp only [List.mem_cons, List.not_mem_nil, or_false, not_or] at hj
  unfold getMaximizationInputsWith JaxDerivatives.getattr
  rw [h]
  simp [Bind.bind, Except.bind, hj]

/-- C98: without the argument, jacobian_type is "jacrev". -/
theorem C98_default_type (d : JaxDerivatives) (m : ModelDict ℝ) (df : LongData ℝ) : getMaximizationInputsWith d m df = getMaximizationInputsWith d m df "jacrev" := rfl

end Skill
