import Verif.Lemmas.Shift2
import Verif.Props.NoLookAhead
import Verif.Props.Residuals
/- C146: the locations of latent factors are not identified without normalizations, for any transition functions. -/
namespace Skill
open Matrix Spec

variable {m : ModelDict ℝ} {custom : String → CustomFn} {val val' : Loc → ℝ} {τ : Nat → String → ℝ}

/-- **C146**: move the latent factors in each period, correct intercepts and initial means, and let the new transition functions be the old ones in terms of the moved factors. For any transition functions, any number of mixture
elements, with or without anchoring, and for any dataset, loglike is exactly the same function of the data: the same value, the same contributions of individuals and of updates. -/
theorem C146_locations (hg : GoodNames m) (hc : CleanAnchoring m) (ho : SameOrder m) (hclash : NoNameClash m) (hall : ∀ t, IsPeriod m t → ∃ v, IsUpdate m t v)
    (hkappa : ∀ o x, m.estimationOptions = some o → o.sigmaPointsScale = some x → 0 ≤ x)
    {df : LongData ℝ} (hi : IndexOk df) (hnu : NoUnusedPeriods df) {ids pers : List Int} (hids : IdsOf df ids) (hpers : PeriodsOf df pers) {inputs : MaximizationInputs} (hin : getMaximizationInputs m df = .ok inputs) {qr : QR}
    {nan : ℝ} {params params' : List (Loc × ℝ)} (hn : (params.map Prod.fst).Nodup) (hn' : (params'.map Prod.fst).Nodup) (hval : ∀ l x, (l, x) ∈ params → x = val l) (hval' : ∀ l x, (l, x) ∈ params' → x = val' l)
    (hmv : MovedLocations custom m τ val val')
    (hu : ∀ t, IsPeriod m (t + 1) → ∀ fs ∈ m.factors, TransFn.Usable (allFactors m) (fun name => val ⟨.transition, t, fs.1, name⟩) (transFnOf (custom fs.1) fs.2.transition))
    (hu' : ∀ t, IsPeriod m (t + 1) → ∀ fs ∈ m.factors, TransFn.Usable (allFactors m) (fun name => val' ⟨.transition, t, fs.1, name⟩) (transFnOf (custom fs.1) fs.2.transition))
    {out out' : LoglikeOutput} (h : inputs.loglike qr custom nan m params = .ok out) (h' : inputs.loglike qr custom nan m params' = .ok out') : out' = out := by
  unfold MaximizationInputs.loglike at h h'
  obtain ⟨pm, hpm⟩ : ∃ pm, processModel m = .ok pm := by
    unfold getMaximizationInputs at hin
    simp only [py_bind_ok] at hin
    obtain ⟨pm, hpm, _⟩ := hin
    exact ⟨pm, hpm⟩
  obtain ⟨nObs, r, r', h1, h2, _, _, e1, e2, e3, _⟩ := evaluate_moved hpm hg hc ho hclash hall hkappa hi hnu hids hpers hin hn hn' hval hval' hmv hu hu' h h'
  rw [← Except.ok.inj h1, ← Except.ok.inj h2]
  unfold LoglikeResult.output
  rw [e1, e2, e3]

theorem debugBlock_map {β γ : Type} {nObs nMix : ℕ} (F : β → γ) (row : URow) (data : Fin nObs → Fin nMix → β) :
    debugBlock row (fun i e => F (data i e)) = (debugBlock row data).map (fun d => { value := F d.value, mixture := d.mixture, period := d.period, id := d.id, measurement := d.measurement }) := by
  unfold debugBlock
  have : flattenMixtures (fun i e => F (data i e)) = (flattenMixtures data).map (fun x => (F x.1, x.2)) := by
    unfold flattenMixtures
    rw [List.map_flatMap]
    simp only [List.map_map, Function.comp_def]
  rw [this, List.zipIdx_map, List.map_map, List.map_map]
  rfl

/-- **C146**: in the results of debug_loglike residuals, their standard deviations and all contributions stay the same, and the latent factors after each update are moved by the change of location. -/
theorem C146_debug (hg : GoodNames m) (hc : CleanAnchoring m) (ho : SameOrder m) (hclash : NoNameClash m) (hall : ∀ t, IsPeriod m t → ∃ v, IsUpdate m t v)
    (hkappa : ∀ o x, m.estimationOptions = some o → o.sigmaPointsScale = some x → 0 ≤ x)
    {df : LongData ℝ} (hi : IndexOk df) (hnu : NoUnusedPeriods df) {ids pers : List Int} (hids : IdsOf df ids) (hpers : PeriodsOf df pers) {inputs : MaximizationInputs} (hin : getMaximizationInputs m df = .ok inputs) {qr : QR}
    {nan : ℝ} {params params' : List (Loc × ℝ)} (hn : (params.map Prod.fst).Nodup) (hn' : (params'.map Prod.fst).Nodup) (hval : ∀ l x, (l, x) ∈ params → x = val l) (hval' : ∀ l x, (l, x) ∈ params' → x = val' l)
    (hmv : MovedLocations custom m τ val val')
    (hu : ∀ t, IsPeriod m (t + 1) → ∀ fs ∈ m.factors, TransFn.Usable (allFactors m) (fun name => val ⟨.transition, t, fs.1, name⟩) (transFnOf (custom fs.1) fs.2.transition))
    (hu' : ∀ t, IsPeriod m (t + 1) → ∀ fs ∈ m.factors, TransFn.Usable (allFactors m) (fun name => val' ⟨.transition, t, fs.1, name⟩) (transFnOf (custom fs.1) fs.2.transition))
    {out out' : DebugData} (h : inputs.debugLoglike qr custom nan m params = .ok out) (h' : inputs.debugLoglike qr custom nan m params' = .ok out') :
    out'.value = out.value ∧ out'.contributions = out.contributions ∧ out'.allContributions = out.allContributions ∧ out'.residuals = out.residuals ∧ out'.residualSds = out.residualSds ∧
      out'.postUpdateStates = out.postUpdateStates.map (fun d => { d with value := List.zipWith (fun x f => x + τ d.period f) d.value (latents m) }) := by
  unfold MaximizationInputs.debugLoglike at h h'
  obtain ⟨pm, hpm, hmod⟩ : ∃ pm, processModel m = .ok pm ∧ inputs.model = pm := by
    unfold getMaximizationInputs at hin
    simp only [py_bind_ok, py_pure_ok] at hin
    obtain ⟨pm, hpm, _, _, _, _, _, _, rfl⟩ := hin
    exact ⟨pm, hpm, rfl⟩
  rw [hmod] at h h'
  obtain ⟨nObs, r, r', h1, h2, l1, l2, e1, e2, e3, key, _⟩ := evaluate_moved hpm hg hc ho hclash hall hkappa hi hnu hids hpers hin hn hn' hval hval' hmv hu hu' h h'
  have hmap : ∀ {β : Type} (F : StepOut nObs pm.dimensions.nMixtures (nLat m) → β), (∀ (k : ℕ) row o o', pm.updateInfo[k]? = some row → r.outs[k]? = some o → r'.outs[k]? = some o' → F o' = F o) → r'.outs.map F = r.outs.map F := by
    intro β F hF
    refine List.ext_getElem? (fun k => ?_)
    rw [List.getElem?_map, List.getElem?_map]
    cases hk : pm.updateInfo[k]? with
    | some row =>
      obtain ⟨o, o', h1, h2, hso⟩ := key k row hk
      rw [h1, h2, Option.map_some, Option.map_some, hF k row o o' hk h1 h2]
    | none =>
      have hk := List.getElem?_eq_none_iff.mp hk
      rw [List.getElem?_eq_none (by rw [l2]; exact hk), List.getElem?_eq_none (by rw [l1]; exact hk)]
  have hso : ∀ (k : ℕ) row o o', pm.updateInfo[k]? = some row → r.outs[k]? = some o → r'.outs[k]? = some o' → ShiftedOut (fun f : Fin (nLat m) => τ row.period (latName m f)) o o' := by
    intro k row o o' hk ho ho'
    obtain ⟨p, p', h1, h2, hs⟩ := key k row hk
    rwa [Option.some.inj (ho.symm.trans h1), Option.some.inj (ho'.symm.trans h2)]
  have m1 := hmap (fun o => o.residuals) (fun k row o o' hk h1 h2 => (hso k row o o' hk h1 h2).residuals)
  have m2 := hmap (fun o => o.residualSds) (fun k row o o' hk h1 h2 => (hso k row o o' hk h1 h2).residualSds)
  unfold processDebugData at h1 h2
  simp only [py_bind_ok, py_pure_ok] at h1 h2
  obtain ⟨post, hp, _, _, res, hres, sds, hsds, con, hcon, rfl⟩ := h1
  obtain ⟨post', hp', _, _, res', hres', sds', hsds', con', hcon', rfl⟩ := h2
  rw [m1] at hres'
  rw [m2] at hsds'
  rw [e3] at hcon'
  refine ⟨e1, by rw [e2], Except.ok.inj (hcon'.symm.trans hcon), Except.ok.inj (hres'.symm.trans hres), Except.ok.inj (hsds'.symm.trans hsds), ?_⟩
  dsimp only
  unfold createPostUpdateStates at hp hp'
  dsimp only at hp hp'
  split_ifs at hp hp'
  obtain rfl := Except.ok.inj hp
  obtain rfl := Except.ok.inj hp'
  rw [List.map_map, List.map_flatten, List.map_flatten, List.map_map, List.map_map]
  congr 1
  refine List.ext_getElem? (fun k => ?_)
  rw [List.getElem?_map, List.getElem?_map]
  cases hk : pm.updateInfo[k]? with
  | none =>
    have hk := List.getElem?_eq_none_iff.mp hk
    rw [List.getElem?_eq_none (by rw [List.length_zip]; omega), List.getElem?_eq_none (by rw [List.length_zip]; omega)]
    rfl
  | some row =>
    obtain ⟨o, o', g1, g2, hs⟩ := key k row hk
    have z1 : (pm.updateInfo.zip (r.outs.map (fun o => o.states)))[k]? = some (row, o.states) := List.getElem?_zip_eq_some.mpr ⟨hk, by rw [List.getElem?_map, g1]; rfl⟩
    have z2 : (pm.updateInfo.zip (r'.outs.map (fun o => o.states)))[k]? = some (row, o'.states) := List.getElem?_zip_eq_some.mpr ⟨hk, by rw [List.getElem?_map, g2]; rfl⟩
    rw [z1, z2, Option.map_some, Option.map_some]
    congr 1
    have hst : o'.states = fun i e => (fun x : Fin (nLat m) → ℝ => fun f => x f + τ row.period (latName m f)) (o.states i e) := by
      funext i e f
      exact hs.states i e f
    show (debugBlock row o'.states).map _ = (debugBlock row o.states).map _
    rw [hst, debugBlock_map (fun x : Fin (nLat m) → ℝ => fun f => x f + τ row.period (latName m f)) row o.states, List.map_map]
    refine List.map_congr_left (fun d hd => ?_)
    have hper : d.period = row.period := by
      unfold debugBlock at hd
      obtain ⟨_, _, rfl⟩ := List.mem_map.mp hd
      rfl
    show ({ value := List.ofFn (fun f : Fin (nLat m) => d.value f + τ row.period (latName m f)), mixture := _, period := _, id := _, measurement := _ } : DebugRow (List ℝ)) = _
    rw [Function.comp_apply]
    congr 1
    dsimp only
    rw [latents_ofFn, hper]
    refine List.ext_getElem (by simp) (fun j h1 h2 => ?_)
    simp only [List.getElem_ofFn, List.getElem_zipWith]

end Skill
