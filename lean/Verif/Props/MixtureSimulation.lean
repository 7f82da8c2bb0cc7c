import Verif.Props.MixtureElements
import Verif.Props.SignsSimulation
/- C136: simulated data of models with copies of mixture elements. -/
namespace Skill
open Matrix Spec
variable {m : ModelDict ℝ} {pm : Processed ℝ} {k k' : ℕ}

theorem withMixtures_simulation (hm : SimulationModel m k) (h0 : k' ≠ 0) : SimulationModel (withMixtures m k') k' where
  names := withMixtures_names hm.names k'
  anchoring := ⟨⟨hm.anchoring.1.latent, hm.anchoring.1.notMeasured, hm.anchoring.1.distinct⟩, hm.anchoring.2.1, hm.anchoring.2.2⟩
  safe := hm.safe
  columns := hm.columns
  periods := hm.periods
  updates := hm.updates
  mixture := by
    obtain ⟨o, h, _⟩ := hm.mixture
    exact ⟨{ o with nMixtures := some k' }, by simp only [withMixtures, h, Option.map_some], Or.inl rfl⟩
  elements := h0

theorem cellsWith_withMixtures (custom : String → CustomFn) (val : Loc → ℝ) (cov : Covariates) (policies : List Policy) (start : String → ℝ) (shock error : Nat → String → ℝ) (pol : Nat → ℝ) (k' : ℕ) :
    (cellsWith custom (withMixtures m k') val cov policies start shock error pol : Cell m → ℝ) = cellsWith custom m val cov policies start shock error pol := by
  have hst : statesWith custom (withMixtures m k') val cov policies start shock pol = statesWith custom m val cov policies start shock pol := by
    funext t
    induction t with
    | zero => rfl
    | succ t ih =>
      rw [statesWith, statesWith, ih]
      rfl
  funext c
  rcases c with c | c
  · exact congrFun (congrFun hst _) _
  · exact congrArg (fun s => measurementWith m val cov s (error c.1.1 c.1.2) c.1.1 c.1.2) hst

theorem withMixtures_individuals {nObs : Option Nat} {data : Option (LongData ℝ)} {n : ℕ} {cov : Nat → Covariates} (hi : Individuals m nObs data n cov) (k' : ℕ) : Individuals (withMixtures m k') nObs data n cov := by
  cases hi with
  | ofData h1 h2 h3 h4 h5 h6 => exact .ofData h1 h2 h3 h4 ⟨h5.keys, h5.outcomes, h5.controls, h5.measurements, h5.observed⟩ h6
  | ofNumber h1 h2 h3 => exact .ofNumber h1 h2 h3

/-- **C136**: simulate a dataset with the same random numbers for a model and for a version of it with copies of mixture elements. If the element that is drawn for an individual in the second version is always a copy of the element that is
drawn in the first version, simulate_dataset returns the same dataset: the same latent factors, anchored latent factors and measurements (`x`) for all individuals and periods. -/
theorem C136_simulation (root : NormalRoot) (hpm : processModel m = .ok pm) (hm : SimulationModel m k) (hk' : k' ≠ 0) (custom : String → CustomFn) (nan : ℝ) {merge : ℕ → ℕ} {val val' : Loc → ℝ} (hcopy : Copies m k k' merge val val')
    {policies : List Policy} (hv : SimulationValues custom m k val policies) {params params' : List (Loc × ℝ)} (hparams : HasParams m params val)
    (hparams' : HasParams (withMixtures m k') params' val') {nObs : Option Nat} {data : Option (LongData ℝ)} {n : ℕ} {cov : Nat → Covariates} (hi : Individuals m nObs data n cov) (hn : 0 < n) {draws draws' : DatasetDraws}
    (hnormal : draws'.normal = draws.normal) (hd' : k' ≠ 1 → ∀ i < n, draws'.element i < k') (hd : k ≠ 1 → ∀ i < n, draws.element i = merge (if k' = 1 then 0 else draws'.element i)) :
    ∃ (x : Nat → Cell m → ℝ) (out out' : SimulatedDataset), simulateDataset root custom nan m params nObs data policies draws = .ok out ∧ simulateDataset root custom nan (withMixtures m k') params' nObs data policies draws' = .ok out' ∧
      DatasetIs m val n x out ∧ DatasetIs m val n x out' ∧ out'.measurements.rows = out.measurements.rows := by
  obtain ⟨nT, hT⟩ : ∃ nT, pm.dimensions.nPeriods = nT + 2 := ⟨pm.dimensions.nPeriods - 2, by have := (isPeriod_iff hpm 1).mp hm.periods; omega⟩
  have h0 : 0 < k' := Nat.pos_of_ne_zero hk'
  have hpm' := processModel_withMixtures hpm k'
  have htr : ∀ t f, (fun name => val' ⟨.transition, t, f, name⟩) = fun name => val ⟨.transition, t, f, name⟩ := fun t f => funext fun name => hcopy.others _ (by simp) (by simp) (by simp)
  have hsum : ∑ e : Fin k', val' ⟨.mixtureWeights, 0, Spec.mixtureName e, "-"⟩ = 1 := by
    rw [Fin.sum_univ_eq_sum_range (fun e => val' ⟨.mixtureWeights, 0, Spec.mixtureName e, "-"⟩), ← hcopy.total, ← Finset.sum_fiberwise_of_maps_to (g := merge) (t := Finset.range k) (fun e he => Finset.mem_range.mpr (hcopy.inRange e (Finset.mem_range.mp he)))]
    exact (Finset.sum_congr rfl (fun e he => hcopy.weights e (Finset.mem_range.mp he))).symm
  have hv' : SimulationValues custom (withMixtures m k') k' val' policies := ⟨hcopy.positive', hsum, fun t ht fs hfs => by rw [htr]; exact hv.usable t ht fs hfs, hv.policies⟩
  -- the elements of the individuals
  let e' : ℕ → Fin k' := fun i => if h : (if k' = 1 then 0 else draws'.element i) < k' then ⟨_, h⟩ else ⟨0, h0⟩
  have he' : k' ≠ 1 → ∀ i < n, draws'.element i = (e' i : ℕ) := fun h i hil => by
    have h1 : (if k' = 1 then 0 else draws'.element i) = draws'.element i := if_neg h
    show _ = ((dite _ _ _ : Fin k') : ℕ)
    rw [dif_pos (by rw [h1]; exact hd' h i hil)]
    exact h1.symm
  have hee : ∀ i < n, (e' i : ℕ) = if k' = 1 then 0 else draws'.element i := fun i hil => by
    show ((dite _ _ _ : Fin k') : ℕ) = _
    rw [dif_pos]
    split_ifs with h
    · exact h0
    · exact hd' h i hil
  have he : k ≠ 1 → ∀ i < n, draws.element i = ((⟨merge (e' i), hcopy.inRange _ (e' i).isLt⟩ : Fin k) : ℕ) := fun h i hil => by
    show _ = merge (e' i)
    rw [hd h i hil, hee i hil]
  obtain ⟨out, ho, hx⟩ := simulateDataset_cells root hpm hm custom nan hv hparams hi hn hT (draws := draws) (e := fun i => ⟨merge (e' i), hcopy.inRange _ (e' i).isLt⟩) he
  obtain ⟨out', ho', hx'⟩ := simulateDataset_cells root hpm' (withMixtures_simulation hm hk') custom nan hv' hparams' (withMixtures_individuals hi k') hn hT (draws := draws') (e := e') he'
  have hval : ∀ l, l.cat = .loadings ∨ l.cat = .controls ∨ l.cat = .transition → val' l = val l := by
    rintro l (h | h | h)
    all_goals exact hcopy.others l (by rw [h]; simp) (by rw [h]; simp) (by rw [h]; simp)
  have hper : ∀ t, IsPeriod m t → t < nT + 2 := fun t h => by have := (isPeriod_iff hpm t).mp h; omega
  have hcells : ∀ i, (noiseCells custom (withMixtures m k') val' (cov i) policies (e' i)
        (blockMul (simRoot root (simFixed custom (withMixtures m k') { pm with dimensions := { pm.dimensions with nMixtures := k' }, estimationOptions := { pm.estimationOptions with nMixtures := some k' } } val' n nT cov) (pm.updateInfo.map (labelRow (withMixtures m k') val')) policies.length ((labelCarry (withMixtures m k') val' n k').upperChols ⟨0, hn⟩ (e' i))) (fun a => draws'.normal i (simDraw a))) : Cell m → ℝ) =
      noiseCells custom m val (cov i) policies (⟨merge (e' i), hcopy.inRange _ (e' i).isLt⟩ : Fin k)
        (blockMul (simRoot root (simFixed custom m pm val n nT cov) (pm.updateInfo.map (labelRow m val)) policies.length ((labelCarry m val n k).upperChols ⟨0, hn⟩ ⟨merge (e' i), hcopy.inRange _ (e' i).isLt⟩)) (fun a => draws.normal i (simDraw a))) := by
    intro i
    unfold noiseCells
    have hF := labelFixed_copies (pm := pm) hcopy custom n nT (fun t i j => (cov i).control t (conName m j)) (fun t i j => (cov i).factor t (obsName m j))
    have hR : pm.updateInfo.map (labelRow (withMixtures m k') val') = pm.updateInfo.map (labelRow m val) := List.map_congr_left (fun r _ => labelRow_copies hcopy r)
    have hU := (labelCarry_merges hcopy n).upperChols ⟨0, hn⟩ (e' i)
    refine (cellsWith_withMixtures custom val' (cov i) policies _ _ _ _ k').trans ?_
    rw [cellsWith_values hval]
    refine cellsWith_congr custom val (cov i) (fun t v h => isUpdate_period h) (fun f hf => ?_) (fun t ht f _ => ?_) (fun t v h => ?_) (fun j hj => ?_)
    · refine congrArg₂ (· + ·) (hcopy.states _ (e' i).isLt f ((mem_latents_iff m f).mp hf)) ?_
      refine (wStart_eq root (withMixtures m k') _ _ _ (draws'.normal i) f).trans ?_
      rw [hnormal, hU]
      exact (wStart_eq root m _ _ _ (draws.normal i) f).symm
    · have h1 : t < nT + 1 := by have := hper _ ht; omega
      refine (wShock_eq root (withMixtures m k') _ _ _ (draws'.normal i) h1 f).trans ((?_ : _ = _).trans (wShock_eq root m _ _ _ (draws.normal i) h1 f).symm)
      rw [hnormal]
      exact congrArg (fun F : ScanFixed n nT (nLat m) (nObsd m) (nCon m) (Dict (List ℝ)) => shockOf root m (diagonal (fun f => F.shockSds (jaxIndex nT t) f ^ 2)) (fun j => draws.normal i (.shock t j)) f) hF
    · have h2 : t < nT + 2 := hper _ (isUpdate_period h)
      refine (wError_eq root (withMixtures m k') _ _ _ (draws'.normal i) h2 v).trans ((?_ : _ = _).trans (wError_eq root m _ _ _ (draws.normal i) h2 v).symm)
      rw [hnormal]
      exact congrArg (fun R : List (UpdateParams (nLat m) (nCon m)) => errorOf root (rowsOf R t) (fun j => draws.normal i (.error t j)) v) hR
    · rw [wPolicy_eq root m _ _ _ (draws.normal i) hj]
      refine (wPolicy_eq root (withMixtures m k') _ _ _ (draws'.normal i) hj).trans ?_
      rw [hnormal]
  have hX := funext hcells
  have ha : anchoredValue m val = anchoredValue m val' := by
    obtain ⟨h1, h2⟩ := anchoredValue_values (m := m) hval
    funext t f y
    unfold anchoredValue
    rw [h1, h2]
  have hout : DatasetIs m val n (fun i => noiseCells custom m val (cov i) policies (⟨merge (e' i), hcopy.inRange _ (e' i).isLt⟩ : Fin k)
        (blockMul (simRoot root (simFixed custom m pm val n nT cov) (pm.updateInfo.map (labelRow m val)) policies.length ((labelCarry m val n k).upperChols ⟨0, hn⟩ ⟨merge (e' i), hcopy.inRange _ (e' i).isLt⟩)) (fun a => draws.normal i (simDraw a)))) out' := by
    rw [← hX]
    refine ⟨hx'.size, hx'.columns, hx'.unanchored, ?_, hx'.measurements, hx'.ranges⟩
    rw [ha]
    exact hx'.anchored
  exact ⟨_, out, out', ho, ho', hx, hout, measurements_eq (isNPeriods_of_ok hpm) hx hout (fun _ _ _ => rfl)⟩

end Skill
