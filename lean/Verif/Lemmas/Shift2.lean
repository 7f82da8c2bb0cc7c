import Verif.Lemmas.WeightsSum
import Verif.Lemmas.Shift
import Verif.Lemmas.Edits3
import Verif.Lemmas.SimulateDataset2
import Verif.Lemmas.ParamsUpTo
import Verif.Lemmas.SameLaw
import Verif.Lemmas.OwnData
import Verif.Spec.MovedLocations
/- Parameters with other locations of the latent factors, by label. -/
namespace Skill
open Matrix Spec

theorem gapless_map {A B : Type} {per : B → ℕ} {g : A → B} {p : ℕ} {as : List A} (h : Gapless per p (as.map g)) : Gapless (fun a => per (g a)) p as := by
  induction as generalizing p with
  | nil => trivial
  | cons a as ih => exact ⟨h.1, ih h.2⟩

section
variable {m : ModelDict ℝ} {pm : Processed ℝ} {custom : String → CustomFn} {val val' : Loc → ℝ} {τ : Nat → String → ℝ} {nObs nT : ℕ}

/-- The transition by name. -/
theorem unanchored_factorNext (hpm : processModel m = .ok pm) (hg : GoodNames m) (hc : CleanAnchoring m) {t : ℕ} (ht : t ≤ nT)
    (hu : ∀ fs ∈ m.factors, TransFn.Usable (allFactors m) (fun name => val ⟨.transition, t, fs.1, name⟩) (transFnOf (custom fs.1) fs.2.transition)) {con : Fin (nT + 2) → Fin nObs → Fin (nCon m) → ℝ}
    {obs : Fin (nT + 2) → Fin nObs → Fin (nObsd m) → ℝ} (i : Fin nObs) {cov : Covariates} (hcov : ∀ j : Fin (nObsd m), cov.factor t (obsName m j) = obs ⟨t, by omega⟩ i j)
    {x : Fin (nLat m) → ℝ} {s : String → ℝ} (hs : ∀ f : Fin (nLat m), s (latName m f) = x f) (f : Fin (nLat m)) :
    unanchoredTransition (labelFixed custom m pm val nObs nT con obs) i t x f = factorNext custom m val cov t s (latName m f) := by
  have h1 : (jaxIndex nT (t : Int)).val = t := jaxIndex_val ht
  have h2 : (jaxIndex (nT + 1) (t : Int)).val = t := jaxIndex_val (by omega)
  have h2' : jaxIndex (nT + 1) (t : Int) = ⟨t, by omega⟩ := Fin.ext h2
  have h3 : (jaxIndex (nT + 1) ((t : Int) + 1)).val = t + 1 := by
    have := jaxIndex_val (k := nT + 1) (t := t + 1) (by omega)
    rwa [Nat.cast_add, Nat.cast_one] at this
  unfold unanchoredTransition labelFixed
  simp only [scalingOf_eq, constantOf_eq, h1, h2, h3, allName_castAdd]
  rw [transition_name hpm hg custom val hu (x := fun g => if g ∈ latents m then anchoredValue m val t g (s g) else cov.factor t g)]
  · rfl
  · intro g
    refine Fin.addCases (fun a => ?_) (fun a => ?_) g
    · rw [allName_castAdd, if_pos (latName_mem a), Fin.append_left, hs]
      unfold anchoredValue
      ring
    · rw [allName_natAdd, if_neg (obsName_not_latent hg a), Fin.append_right, (anchor_observed hg hc val t a).1, (anchor_observed hg hc val t a).2, hcov, h2']
      ring

theorem unanchored_moved (hpm : processModel m = .ok pm) (hT : pm.dimensions.nPeriods = nT + 2) (hg : GoodNames m) (hc : CleanAnchoring m) (hmv : MovedLocations custom m τ val val')
    (hu : ∀ t, IsPeriod m (t + 1) → ∀ fs ∈ m.factors, TransFn.Usable (allFactors m) (fun name => val ⟨.transition, t, fs.1, name⟩) (transFnOf (custom fs.1) fs.2.transition))
    (hu' : ∀ t, IsPeriod m (t + 1) → ∀ fs ∈ m.factors, TransFn.Usable (allFactors m) (fun name => val' ⟨.transition, t, fs.1, name⟩) (transFnOf (custom fs.1) fs.2.transition))
    (con : Fin (nT + 2) → Fin nObs → Fin (nCon m) → ℝ) (obs : Fin (nT + 2) → Fin nObs → Fin (nObsd m) → ℝ) {t : ℕ} (ht : t ≤ nT) (i : Fin nObs) (x : Fin (nLat m) → ℝ) (f : Fin (nLat m)) :
    unanchoredTransition (labelFixed custom m pm val' nObs nT con obs) i t (fun g => x g + τ t (latName m g)) f =
      unanchoredTransition (labelFixed custom m pm val nObs nT con obs) i t x f + τ (t + 1) (latName m f) := by
  have hp : IsPeriod m (t + 1) := (isPeriod_iff hpm _).mpr (by omega)
  let cov : Covariates := { control := fun _ _ => 0, factor := fun _ g => byName m (Fin.append x (obs ⟨t, by omega⟩ i)) g, isObserved := fun _ _ => false }
  have hcov : ∀ j : Fin (nObsd m), cov.factor t (obsName m j) = obs ⟨t, by omega⟩ i j := fun j => by
    have := byName_allName hg (Fin.append x (obs ⟨t, by omega⟩ i)) (Fin.natAdd (nLat m) j)
    rwa [allName_natAdd, Fin.append_right] at this
  have hs : ∀ g : Fin (nLat m), byName m (Fin.append x (obs ⟨t, by omega⟩ i)) (latName m g) = x g := fun g => by
    have := byName_allName hg (Fin.append x (obs ⟨t, by omega⟩ i)) (Fin.castAdd (nObsd m) g)
    rwa [allName_castAdd, Fin.append_left] at this
  rw [unanchored_factorNext hpm hg hc ht (hu t hp) i hcov hs, unanchored_factorNext hpm hg hc ht (hu' t hp) i hcov (s := fun g => byName m (Fin.append x (obs ⟨t, by omega⟩ i)) g + τ t g) (fun g => by rw [hs])]
  exact hmv.transitions t hp cov _ _ ((mem_latents_iff m _).mp (latName_mem f))

open Classical in
theorem labelRow_moved (hpm : processModel m = .ok pm) (hg : GoodNames m) (hmv : MovedLocations custom m τ val val') {r : URow} (hr : r ∈ pm.updateInfo) :
    labelRow m val' r = { labelRow m val r with controlParams := (labelRow m val' r).controlParams } ∧
    ∀ x : Fin (nCon m) → ℝ, x 0 = 1 → ∑ j, x j * (labelRow m val' r).controlParams j = ∑ j, x j * (labelRow m val r).controlParams j - ∑ f : Fin (nLat m), τ r.period (latName m f) * (labelRow m val r).loadings f := by
  obtain ⟨_, hmem, _, hload, _⟩ := C01_update_info_exact hpm
  constructor
  · unfold labelRow
    congr 1
    · funext f
      rw [hmv.others _ (by simp) (by simp) (by simp)]
    · exact hmv.others _ (by simp) (by simp) (by simp)
  · intro x hx
    rw [Fin.sum_univ_succ, Fin.sum_univ_succ, hx, one_mul, one_mul]
    have h0 : (labelRow m val' r).controlParams 0 = (labelRow m val r).controlParams 0 - ∑ f : Fin (nLat m), τ r.period (latName m f) * (labelRow m val r).loadings f := by
      show val' ⟨.controls, r.period, r.var, "constant"⟩ = val ⟨.controls, r.period, r.var, "constant"⟩ - _
      rw [hmv.intercepts _ _ ((hmem _ _).mp ⟨r, hr, rfl, rfl⟩)]
      congr 1
      have hl : Spec.latents m = List.ofFn (fun f : Fin (nLat m) => latName m f) := latents_ofFn m
      rw [hl, List.map_ofFn, List.sum_ofFn]
      refine Finset.sum_congr rfl (fun f _ => ?_)
      show (if Loads m r.period r.var (latName m f) then _ else _) = _ * (if latName m f ∈ r.trueCols then _ else _)
      have hiff : latName m f ∈ r.trueCols ↔ Loads m r.period r.var (latName m f) := hload r hr _
      by_cases h : Loads m r.period r.var (latName m f)
      · rw [if_pos h, if_pos (hiff.mpr h), mul_comm]
      · rw [if_neg h, if_neg (fun h' => h (hiff.mp h')), mul_zero]
    rw [h0]
    have h1 : ∀ j : Fin ((m.controls.getD []).length), (labelRow m val' r).controlParams j.succ = (labelRow m val r).controlParams j.succ := fun j => by
      refine hmv.others _ (by simp) (by simp) ?_
      rintro ⟨_, h⟩
      have hget := conName_get (m := m) j.succ
      have h' : conName m j.succ = "constant" := h
      rw [h', Fin.val_succ, List.getElem?_cons_succ] at hget
      exact (List.nodup_cons.mp hg.controls).1 (List.mem_of_getElem? hget)
    simp only [h1]
    ring

/-- Evaluations of the likelihood function with the parameters before and after a change of locations. -/
theorem evaluate_moved {γ γ' : Type} {post : (nObs nMix n : ℕ) → LoglikeResult nObs nMix n → Py γ} {post' : (nObs nMix n : ℕ) → LoglikeResult nObs nMix n → Py γ'} (hpm : processModel m = .ok pm) (hg : GoodNames m)
    (hc : CleanAnchoring m) (ho : SameOrder m) (hclash : NoNameClash m) (hall : ∀ t, IsPeriod m t → ∃ v, IsUpdate m t v) (hkappa : ∀ o x, m.estimationOptions = some o → o.sigmaPointsScale = some x → 0 ≤ x)
    {df : LongData ℝ} (hi : IndexOk df) (hnu : NoUnusedPeriods df) {ids pers : List Int} (hids : IdsOf df ids) (hpers : PeriodsOf df pers) {inputs : MaximizationInputs} (hin : getMaximizationInputs m df = .ok inputs) {qr : QR} {nan : ℝ} {params params' : List (Loc × ℝ)}
    (hn : (params.map Prod.fst).Nodup) (hn' : (params'.map Prod.fst).Nodup) (hval : ∀ l x, (l, x) ∈ params → x = val l) (hval' : ∀ l x, (l, x) ∈ params' → x = val' l) (hmv : MovedLocations custom m τ val val')
    (hu : ∀ t, IsPeriod m (t + 1) → ∀ fs ∈ m.factors, TransFn.Usable (allFactors m) (fun name => val ⟨.transition, t, fs.1, name⟩) (transFnOf (custom fs.1) fs.2.transition))
    (hu' : ∀ t, IsPeriod m (t + 1) → ∀ fs ∈ m.factors, TransFn.Usable (allFactors m) (fun name => val' ⟨.transition, t, fs.1, name⟩) (transFnOf (custom fs.1) fs.2.transition))
    {out : γ} {out' : γ'} (h : inputs.evaluate post qr custom nan m params = .ok out) (h' : inputs.evaluate post' qr custom nan m params' = .ok out') :
    ∃ (nObs : ℕ) (r r' : LoglikeResult nObs pm.dimensions.nMixtures (nLat m)), post nObs pm.dimensions.nMixtures (nLat m) r = .ok out ∧ post' nObs pm.dimensions.nMixtures (nLat m) r' = .ok out' ∧
      r.outs.length = pm.updateInfo.length ∧ r'.outs.length = pm.updateInfo.length ∧ r'.value = r.value ∧ r'.contributions = r.contributions ∧ r'.allContributions = r.allContributions ∧
      (∀ (k : ℕ) (row : URow), pm.updateInfo[k]? = some row → ∃ o o', r.outs[k]? = some o ∧ r'.outs[k]? = some o' ∧ ShiftedOut (fun f : Fin (nLat m) => τ row.period (latName m f)) o o') ∧ nObs = ids.length ∧
      ((∀ e : Fin pm.dimensions.nMixtures, 0 < val ⟨.mixtureWeights, 0, Spec.mixtureName e, "-"⟩) → ∑ e : Fin pm.dimensions.nMixtures, val ⟨.mixtureWeights, 0, Spec.mixtureName e, "-"⟩ = 1 → ∀ o ∈ r.outs, WeightsOk o.logWeights) := by
  obtain ⟨pm1, nT, con, obs, data, r, hpm1, hT, hdata, hcon, hobs, hmeas, hr, hpost⟩ := evaluate_explicit hg hc ho hin hn hval h rfl
  obtain rfl := Except.ok.inj (hpm.symm.trans hpm1)
  obtain ⟨pm2, nT', con', obs', data', r', hpm2, hT', _, hcon', hobs', hmeas', hr', hpost'⟩ := evaluate_explicit hg hc ho hin hn' hval' h' rfl
  obtain rfl := Except.ok.inj (hpm.symm.trans hpm2)
  obtain rfl : nT = nT' := by omega
  obtain rfl : con = con' := by
    funext t i j
    obtain ⟨w, h1, h2⟩ := hcon t i j
    obtain ⟨w', h1', h2'⟩ := hcon' t i j
    rw [h2, h2', Option.some.inj (h1.symm.trans h1')]
  obtain rfl : obs = obs' := by
    funext t i j
    obtain ⟨w, h1, h2⟩ := hobs t i j
    obtain ⟨w', h1', h2'⟩ := hobs' t i j
    rw [h2, h2', Option.some.inj (h1.symm.trans h1')]
  obtain rfl : data = data' := by
    funext k i
    exact Option.some.inj ((hmeas k i).symm.trans (hmeas' k i))
  obtain ⟨_, hmem, hsort, _⟩ := C01_update_info_exact hpm
  have hper : ∀ row ∈ pm.updateInfo, IsPeriod m row.period := fun row hrow => isUpdate_period ((hmem _ _).mp ⟨row, hrow, rfl, rfl⟩)
  -- the constant is one if a measurement is observed
  have hone : ∀ (k : Fin pm.updateInfo.length) (p : Fin (nT + 2)) i, p.val = (pm.updateInfo.get k).period → (data k i).isSome = true → con p i 0 = 1 := by
    intro k p i hp ho
    obtain ⟨meas, hm1, _, _, _, harr⟩ := C27_data_arrays hpm hg.keys hclash hi hnu hids hpers hdata
    have hP1 : IsPeriod m 1 := (isPeriod_iff hpm 1).mpr (by omega)
    have hlen : (inputs.data.controls.headD []).length = ids.length := length_of_controls hpm hP1 hclash hg hi hnu hids hpers hin
    have hil : i.val < ids.length := hlen ▸ i.isLt
    obtain ⟨row, hrow⟩ := exists_rowOf df ids pers p.val hil
    have hpp : IsPeriod m p.val := (isPeriod_iff hpm _).mpr (by omega)
    obtain ⟨v, hv⟩ := exists_valueIs m row (pm.updateInfo.get k).var
    obtain ⟨w, h1, h2⟩ := (harr i p row hil hpp hrow).1 k (pm.updateInfo.get k) v (by simp) hp.symm hv
    have hw := hmeas k i
    rw [hm1, Option.getD_some, h1] at hw
    rw [← Option.some.inj hw] at ho
    have hinc : ¬IncompleteControls m row p := by
      rcases h2 with ⟨_, h2⟩ | ⟨h2, _⟩
      · rw [h2] at ho
        cases ho
      · exact h2
    have hone : ValueIs m row "constant" (some (1 : ℝ)) := by
      refine Or.inr ⟨?_, rfl⟩
      rintro ⟨f, o, _, hname⟩
      have h := congrArg String.toList hname
      have hmem : '_' ∈ (o ++ "_" ++ f).toList := by simp
      rw [← h] at hmem
      revert hmem
      decide
    obtain ⟨z, z1, z2⟩ := (harr i p row hil hpp hrow).2.1 0 "constant" _ rfl hone
    obtain ⟨z', z1', z2'⟩ := hcon p i 0
    have hz : z = some 1 := by
      rcases z2 with ⟨z2, _⟩ | ⟨_, z2⟩
      · exact absurd z2 hinc
      · exact z2
    rw [z2', ← Option.some.inj (z1.symm.trans z1'), hz, Option.getD_some]
  have hfin : (List.finRange pm.updateInfo.length).map pm.updateInfo.get = pm.updateInfo := by rw [← List.ofFn_eq_map, List.ofFn_get]
  have hrows : ∀ v : Loc → ℝ, pm.updateInfo.map (labelRow m v) = (List.finRange pm.updateInfo.length).map (fun k => labelRow m v (pm.updateInfo.get k)) := fun v => by
    conv_lhs => rw [← hfin, List.map_map]
    rfl
  have hdat : List.ofFn data = (List.finRange pm.updateInfo.length).map data := List.ofFn_eq_map
  obtain ⟨o1, o2, o3, o4⟩ := logLikelihood_ok hr
  obtain ⟨o1', o2', o3', o4'⟩ := logLikelihood_ok hr'
  have hl : ∀ v : Loc → ℝ, (loopArgs (nT + 1) (pm.updateInfo.map (labelRow m v)) (List.ofFn data)).length = pm.updateInfo.length := fun v => by rw [loopArgs_length _ _ (by simp), List.length_map]
  have hs := sigma_label hpm hkappa custom val _ nT con obs
  have hw : ∑ s, (labelFixed custom m pm val _ nT con obs).sigmaWeights s = 1 := by rw [hs.weights]; exact weights_sum hs.positive.ne'
  have hgap := gapless_updates hpm hall
  have key : ∀ (k : ℕ) (row : URow), pm.updateInfo[k]? = some row → ∃ o o', r.outs[k]? = some o ∧ r'.outs[k]? = some o' ∧ ShiftedOut (fun f : Fin (nLat m) => τ row.period (latName m f)) o o' := by
    intro k row hrow
    obtain ⟨hk, rfl⟩ := List.getElem?_eq_some_iff.mp hrow
    rw [o1, o1', hrows, hrows, hdat]
    refine outs_shift qr (fixed := labelFixed custom m pm val _ nT con obs) (fixed' := labelFixed custom m pm val' _ nT con obs) (τ := fun t f => τ t (latName m f)) hw rfl rfl ?_ rfl
      (fun t ht i x f => unanchored_moved hpm hT hg hc hmv hu hu' con obs ht i x f) ⟨fun _ e f => hmv.means e _ ((mem_latents_iff m _).mp (latName_mem f)), ?_, ?_⟩ (fun k => labelRow m val (pm.updateInfo.get k)) (fun k => labelRow m val' (pm.updateInfo.get k)) data
      (fun k _ => ⟨?_, (labelRow_moved hpm hg hmv (List.get_mem _ k)).1, fun p i hp hi => (labelRow_moved hpm hg hmv (List.get_mem _ k)).2 _ (hone k p i hp hi)⟩) ?_ ?_ k ⟨k, hk⟩ (by simp [hk])
    · funext t f
      exact hmv.others _ (by simp) (by simp) (by simp)
    · funext i e
      ext a b
      show (if a ≤ b then _ else _) = (if a ≤ b then _ else _)
      rw [hmv.others _ (by simp) (by simp) (by simp)]
    · funext i e
      show Real.log _ = Real.log _
      rw [hmv.others _ (by simp) (by simp) (by simp)]
    · have := (isPeriod_iff hpm _).mp (hper _ (List.get_mem _ k))
      show (pm.updateInfo.get k).period < nT + 2
      omega
    · refine gapless_map (per := URow.period) (g := fun k => pm.updateInfo.get k) ?_
      rw [hfin]
      exact hgap
    · intro k hk
      show (pm.updateInfo.get k).period = 0
      obtain ⟨v, hv⟩ := hall 0 ((isPeriod_iff hpm 0).mpr (by omega))
      obtain ⟨q, hq, hq0, _⟩ := (hmem 0 v).mpr hv
      have h0 : pm.updateInfo.head? = some (pm.updateInfo.get k) := by
        conv_lhs => rw [← hfin, List.head?_map, hk]
        rfl
      generalize pm.updateInfo.get k = q0 at h0 ⊢
      cases he : pm.updateInfo with
      | nil => rw [he] at hq; cases hq
      | cons a as =>
        rw [he] at hsort hq h0
        rw [← Option.some.inj h0]
        rcases List.mem_cons.mp hq with rfl | hq
        · exact hq0
        · have := (List.pairwise_cons.mp hsort).1 q hq
          omega
  have hall2 : r.outs.map (fun o => o.loglikes) = r'.outs.map (fun o => o.loglikes) := by
    refine List.ext_getElem? (fun k => ?_)
    rw [List.getElem?_map, List.getElem?_map]
    cases hk : pm.updateInfo[k]? with
    | some row =>
      obtain ⟨o, o', h1, h2, hso⟩ := key k row hk
      rw [h1, h2, Option.map_some, Option.map_some, hso.loglikes]
    | none =>
      have hk := List.getElem?_eq_none_iff.mp hk
      rw [List.getElem?_eq_none (by rw [o1, outs_length, hl]; exact hk), List.getElem?_eq_none (by rw [o1', outs_length, hl]; exact hk)]
  have hf : ∀ {β : Type} (F : (Fin ((inputs.data.controls.headD []).length) → ℝ) → β), r.outs.map (fun o => F o.loglikes) = r'.outs.map (fun o => F o.loglikes) := fun F => by
    have := congrArg (List.map F) hall2
    rwa [List.map_map, List.map_map] at this
  refine ⟨_, r, r', hpost, hpost', by rw [o1, outs_length, hl], by rw [o1', outs_length, hl], ?_, ?_, ?_, key, length_of_controls hpm ((isPeriod_iff hpm 1).mpr (by omega)) hclash hg hi hnu hids hpers hin, ?_⟩
  · rw [o4, o4', hf (fun x => ∑ i, softClipping (x i) _ _ _ _)]
  · funext i
    rw [o3, o3', hf (fun x => softClipping (x i) _ _ _ _)]
  · rw [o2, o2', hall2]
  · intro hpos hsum
    rw [o1]
    refine outs_weightsOk qr _ _ (fun i => ?_)
    rw [← hsum]
    exact Finset.sum_congr rfl (fun e _ => Real.exp_log (hpos e))

end
end Skill
