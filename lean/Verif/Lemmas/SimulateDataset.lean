import Verif.Spec.SimulatedDataset
import Verif.Props.FilteredStates
import Verif.Props.Simulate
/-
simulate_dataset in terms of labels: the inputs of the simulation.
-/
namespace Skill
open Matrix Spec

/-- The inputs of the simulation by label. -/
noncomputable def simFixed (custom : String → CustomFn) (m : ModelDict ℝ) (pm : Processed ℝ) (val : Loc → ℝ) (n nT : ℕ) (cov : Nat → Covariates) : ScanFixed n nT (nLat m) (nObsd m) (nCon m) (Dict (List ℝ)) :=
  labelFixed custom m pm val n nT (fun t i j => (cov i).control t (conName m j)) (fun t i j => (cov i).factor t (obsName m j))

/-- Arrays of known values with the shapes of controls or observed factors. -/
structure KnownArray (nP n k : ℕ) (xs : List (List (List (Option ℝ)))) (value : Nat → Nat → Nat → ℝ) : Prop where
  length : xs.length = nP
  shape : ∀ x ∈ xs, x.length = n ∧ ∀ y ∈ x, y.length = k
  values : ∀ t i j, t < nP → i < n → j < k → entry3 xs t i j = some (some (value t i j))

/-- The number of individuals and the covariates of the simulation. -/
theorem simulationData_known {m : ModelDict ℝ} {pm : Processed ℝ} (hpm : processModel m = .ok pm) (hg : GoodNames m) (hclash : NoNameClash m) (hper : IsPeriod m 1) {nObs : Option Nat}
    {data : Option (LongData ℝ)} {n : ℕ} {cov : Nat → Covariates} (hi : Individuals m nObs data n cov) :
    ∃ controls observed, simulationData pm nObs data = .ok (n, controls, observed) ∧ KnownArray pm.dimensions.nPeriods n (nCon m) controls (fun t i j => (cov i).control t (conName m j)) ∧
      KnownArray pm.dimensions.nPeriods n (nObsd m) observed (fun t i j => (cov i).factor t (obsName m j)) := by
  have hnp := isNPeriods_of_ok hpm
  have hpos : 0 < pm.dimensions.nPeriods := by have := (isPeriod_iff hpm 1).mp hper; omega
  cases hi with
  | @ofData _ df ids pers _ h1 h2 h3 h4 h5 h6 =>
    obtain ⟨d, hd⟩ := (processData_accepts hpm hg.keys hclash h1 h2 h3 h4 .simulation).mpr ⟨h5, by simp⟩
    obtain ⟨⟨s1, s2⟩, ⟨s3, s4⟩, hval⟩ := covariate_arrays hpm hg.keys hclash h1 h2 h3 h4 hd
    have s1 := IsNPeriods.unique s1 hnp
    have s3 := IsNPeriods.unique s3 hnp
    have hObs : (d.controls.headD []).length = ids.length := by
      cases hcon : d.controls with
      | nil => rw [hcon] at s1; simp at s1; omega
      | cons x xs => exact (s2 x (by rw [hcon]; simp)).1
    have hkept : ∀ {t : ℕ} {r : Option (LongRow ℝ)} {i : ℕ}, (∀ c ∈ "constant" :: m.controls.getD [], ValueIs m r c (some ((cov i).control t c))) → ∀ {a w : Option ℝ}, Kept m r t a w → w = a := by
      intro t r i hc a w hk
      rcases hk with ⟨⟨⟨c, hcm, hcn⟩, _⟩, _⟩ | ⟨_, h⟩
      · have h7 := hc c hcm
        exfalso
        rcases hcn with ⟨f, o, ha, he, hv⟩ | ⟨hna, hv⟩ <;> rcases h7 with ⟨f', o', ha', he', hv'⟩ | ⟨hna', hv'⟩
        · have := (hclash f o f' o' ha ha').2 (he.symm.trans he')
          rw [← this, ← hv] at hv'
          cases hv'
        · exact hna' ⟨f, o, ha, he⟩
        · exact hna ⟨f', o', ha', he'⟩
        · rw [← hv] at hv'; cases hv'
      · exact h
    refine ⟨d.controls, d.observedFactors, ?_, ⟨s1, s2, ?_⟩, ⟨s3, s4, ?_⟩⟩
    · unfold simulationData
      simp only [py_bind_ok, py_pure_ok]
      exact ⟨d, hd, by rw [hObs]⟩
    · intro t i j ht hil hj
      obtain ⟨r, hr, hc, ho⟩ := h6 i hil t ((isPeriod_iff hpm t).mpr ht)
      obtain ⟨w, hw, hk⟩ := (hval i t r hil ((isPeriod_iff hpm t).mpr ht) hr).1 j (conName m j) _ (conName_get ⟨j, hj⟩) (hc _ (List.mem_of_getElem? (conName_get ⟨j, hj⟩)))
      rw [hw, hkept hc hk]
    · intro t i j ht hil hj
      obtain ⟨r, hr, hc, ho⟩ := h6 i hil t ((isPeriod_iff hpm t).mpr ht)
      obtain ⟨w, hw, hk⟩ := (hval i t r hil ((isPeriod_iff hpm t).mpr ht) hr).2 j (obsName m j) _ (obsName_get ⟨j, hj⟩) (ho _ (List.mem_of_getElem? (obsName_get ⟨j, hj⟩)))
      rw [hw, hkept hc hk]
  | ofNumber h1 h2 h3 =>
    refine ⟨_, _, rfl, ⟨by simp, ?_, ?_⟩, ⟨by simp, ?_, ?_⟩⟩
    · intro x hx
      rw [List.eq_of_mem_replicate hx]
      refine ⟨by simp, fun y hy => ?_⟩
      rw [List.eq_of_mem_replicate hy, nCon, h1]
      rfl
    · intro t i j ht hil hj
      have hj0 : j = 0 := by rw [nCon, h1] at hj; simpa using hj
      subst hj0
      simp only [Option.getD_some] at *
      unfold entry3 entry2
      rw [List.getElem?_replicate, if_pos ht, Option.bind_some, List.getElem?_replicate, if_pos hil, Option.bind_some]
      show some (some (1 : ℝ)) = _
      rw [show conName m 0 = "constant" from rfl, h3 i hil t]
    · intro x hx
      rw [List.eq_of_mem_replicate hx]
      refine ⟨by simp, fun y hy => ?_⟩
      rw [List.eq_of_mem_replicate hy, nObsd, h2]
      rfl
    · intro t i j ht hil hj
      rw [nObsd, h2] at hj
      simp at hj

/-- The inputs of the loop of the filter and of the simulation. -/
theorem loop_inputs_exist {m : ModelDict ℝ} {pm : Processed ℝ} (hpm : processModel m = .ok pm) (hg : GoodNames m) (hc : CleanAnchoring m) (ho : SameOrder m) (custom : String → CustomFn) {val : Loc → ℝ}
    {n nT : ℕ} (hT : pm.dimensions.nPeriods = nT + 2) {p : Parsed ℝ} (hparse : pm.parse Real.log (pm.paramsIndex.map val) n = .ok p) (nan : ℝ) {cov : Nat → Covariates} {controls observed : List (List (List (Option ℝ)))}
    (hcon : KnownArray (nT + 2) n (nCon m) controls (fun t i j => (cov i).control t (conName m j))) (hobs : KnownArray (nT + 2) n (nObsd m) observed (fun t i j => (cov i).factor t (obsName m j))) :
    scanInputs n nT (nLat m) (nObsd m) (nCon m) nan (allFactors m) (transitionFns custom m) pm.estimationOptions.sigmaPointsScale p controls observed = .ok (simFixed custom m pm val n nT cov) ∧
      initialCarry n pm.dimensions.nMixtures (nLat m) p = .ok (labelCarry m val n pm.dimensions.nMixtures) ∧
      loopParams (nLat m) (nCon m) pm.updateInfo p = .ok (pm.updateInfo.map (labelRow m val)) := by
  obtain ⟨p1, p2, p3, p4, p5, p6, p7, p8⟩ := C07_parsed_values hpm hg rfl hparse
  obtain ⟨⟨a1, a2⟩, a3, a4⟩ := anchoring_shapes hpm hg hc hparse
  rw [hT] at a1 a3 p7 p8
  obtain ⟨con, e1⟩ := fillNaN_shape (nan := nan) hcon.length hcon.shape
  obtain ⟨obs, e2⟩ := fillNaN_shape (nan := nan) hobs.length hobs.shape
  have e3 := transition_arrays pm val nT
  obtain ⟨sh, e4⟩ : ∃ sh, toArray2 (nT + 1) (nLat m) p.shockSds = .ok sh := toArray2_exists (by rw [p7]; simp) (by
    intro x hx
    rw [p7] at hx
    obtain ⟨t, _, rfl⟩ := List.mem_map.mp hx
    simp)
  obtain ⟨sc, e5⟩ : ∃ sc, toArray2 (nT + 2) (nLat m + nObsd m) p.scalingFactors = .ok sc := toArray2_exists a1 a2
  obtain ⟨co, e6⟩ : ∃ co, toArray2 (nT + 2) (nLat m + nObsd m) p.anchoringConstants = .ok co := toArray2_exists a3 a4
  obtain ⟨fixed, hfixed⟩ : ∃ fixed, scanInputs n nT (nLat m) (nObsd m) (nCon m) nan (allFactors m) (transitionFns custom m) pm.estimationOptions.sigmaPointsScale p controls observed = .ok fixed := by
    unfold scanInputs
    simp only [py_bind_ok, py_pure_ok]
    rw [p8]
    exact ⟨_, con, e1, obs, e2, _, e3, sh, e4, sc, e5, co, e6, rfl⟩
  obtain ⟨con', obs', rfl, hc1, hc2⟩ := scanInputs_label hpm hg hc ho custom hT hparse hfixed
  refine ⟨?_, ?_, ?_⟩
  · rw [hfixed]
    unfold simFixed
    congr 2
    · funext t i j
      obtain ⟨w, hw, he⟩ := hc1 t i j
      rw [hcon.values t i j t.isLt i.isLt j.isLt] at hw
      rw [he, ← Option.some.inj hw, Option.getD_some]
    · funext t i j
      obtain ⟨w, hw, he⟩ := hc2 t i j
      rw [hobs.values t i j t.isLt i.isLt j.isLt] at hw
      rw [he, ← Option.some.inj hw, Option.getD_some]
  · obtain ⟨carry, hcarry⟩ : ∃ carry, initialCarry n pm.dimensions.nMixtures (nLat m) p = .ok carry := by
      obtain ⟨st, b1⟩ : ∃ st, toArray3 n pm.dimensions.nMixtures (nLat m) p.states = .ok st := toArray3_exists (by rw [p1]; simp) (by
        intro x hx
        rw [p1] at hx
        rw [List.eq_of_mem_replicate hx]
        refine ⟨by simp, ?_⟩
        intro y hy
        obtain ⟨e, _, rfl⟩ := List.mem_map.mp hy
        simp)
      obtain ⟨ch, b2⟩ : ∃ ch, toArray4 n pm.dimensions.nMixtures (nLat m) (nLat m) p.upperChols = .ok ch := toArray4_exists (by rw [p2]; simp) (by
        intro x hx
        rw [p2] at hx
        rw [List.eq_of_mem_replicate hx]
        refine ⟨by simp, ?_⟩
        intro y hy
        obtain ⟨e, _, rfl⟩ := List.mem_map.mp hy
        refine ⟨by simp, ?_⟩
        intro z hz
        obtain ⟨j, _, rfl⟩ := List.mem_map.mp hz
        simp)
      obtain ⟨w, b3⟩ : ∃ w, toArray2 n pm.dimensions.nMixtures p.logWeights = .ok w := toArray2_exists (by rw [p3]; simp) (by
        intro x hx
        rw [p3] at hx
        rw [List.eq_of_mem_replicate hx]
        simp)
      unfold initialCarry
      simp only [py_bind_ok, py_pure_ok]
      exact ⟨_, st, b1, ch, b2, w, b3, rfl⟩
    rw [hcarry, initialCarry_label hpm hg hparse hcarry]
  · obtain ⟨rows, hrows⟩ : ∃ rows, loopParams (nLat m) (nCon m) pm.updateInfo p = .ok rows := by
      obtain ⟨lo, b1⟩ : ∃ lo, toArray2 pm.updateInfo.length (nLat m) p.loadings = .ok lo := toArray2_exists (by rw [p5]; simp) (by
        intro x hx
        rw [p5] at hx
        obtain ⟨t, _, rfl⟩ := List.mem_map.mp hx
        simp)
      obtain ⟨cp, b2⟩ : ∃ cp, toArray2 pm.updateInfo.length (nCon m) p.controls = .ok cp := toArray2_exists (by rw [p4]; simp) (by
        intro x hx
        rw [p4] at hx
        obtain ⟨t, _, rfl⟩ := List.mem_map.mp hx
        simp)
      obtain ⟨sd, b3⟩ : ∃ sd, toArray1 pm.updateInfo.length p.measSds = .ok sd := ⟨_, dif_pos (by rw [p6]; simp)⟩
      unfold loopParams
      simp only [py_bind_ok, py_pure_ok]
      exact ⟨_, lo, b1, cp, b2, sd, b3, rfl⟩
    rw [hrows, loopParams_label hpm hg hparse hrows]

/-- `params.reindex(params_index)`. -/
theorem reindexParams_ok {nan : ℝ} {params : List (Loc × ℝ)} (hn : (params.map Prod.fst).Nodup) {val : Loc → ℝ} {index : List Loc}
    (hall : ∀ l ∈ index, (l, val l) ∈ params) : reindexParams nan params index = .ok (index.map val) := by
  unfold reindexParams
  by_cases he : params.map Prod.fst = index
  · rw [if_pos he, ← he, List.map_map]
    congr 1
    refine List.map_congr_left (fun lx h => ?_)
    have h1 := hall lx.1 (he ▸ List.mem_map.mpr ⟨_, h, rfl⟩)
    have h2 := lookup_of_mem hn h1
    rw [lookup_of_mem hn (show (lx.1, lx.2) ∈ params from h)] at h2
    exact Option.some.inj h2
  · rw [if_neg he, if_pos hn]
    congr 1
    refine List.map_congr_left (fun l hl => ?_)
    rw [lookup_of_mem hn (hall l hl), Option.getD_some]

/-- The draws of an individual. -/
def labelDraws (draws : DatasetDraws) (i : ℕ) {k n : ℕ} (e : Fin k) : Draws k n :=
  { element := e, start := fun f => draws.normal i (.start f), shocks := fun t f => draws.normal i (.shock t f), errors := fun t k => draws.normal i (.error t k), policies := fun k => draws.normal i (.policy k) }

theorem drawsFor_ok {k n : ℕ} (hk : k ≠ 0) {draws : DatasetDraws} {i : ℕ} (h : k ≠ 1 → draws.element i < k) :
    ∃ e : Fin k, e.val = (if k = 1 then 0 else draws.element i) ∧ drawsFor k n draws i = .ok (labelDraws draws i e) := by
  have hlt : (if k = 1 then 0 else draws.element i) < k := by
    split_ifs with h1
    · omega
    · exact h h1
  refine ⟨⟨_, hlt⟩, rfl, ?_⟩
  unfold drawsFor
  exact dif_pos hlt

section
variable (root : NormalRoot) {m : ModelDict ℝ} {pm : Processed ℝ} (hpm : processModel m = .ok pm) {k : ℕ} (hm : SimulationModel m k) (custom : String → CustomFn) (nan : ℝ) {val : Loc → ℝ} {policies : List Policy}
  (hv : SimulationValues custom m k val policies) {params : List (Loc × ℝ)} (hparams : HasParams m params val) {nObs : Option Nat} {data : Option (LongData ℝ)} {n : ℕ} {cov : Nat → Covariates}
  (hi : Individuals m nObs data n cov) (hn : 0 < n)
include hpm hm hv hparams hi hn

theorem simulateDataset_explicit {nT : ℕ} (hT : pm.dimensions.nPeriods = nT + 2) {draws : DatasetDraws} (hd : k ≠ 1 → ∀ i < n, draws.element i < k) :
    ∃ (sims : List (Simulated (nLat m))) (anchored : StatesFrame ℝ), sims.length = n ∧
      simulateDataset root custom nan m params nObs data policies draws = .ok
        { unanchored := { states := filteredFrame (latents m) (stateRows sims), stateRanges := createStateRanges (filteredFrame (latents m) (stateRows sims)) (latents m) }
          anchored := { states := anchored, stateRanges := createStateRanges anchored (latents m) }
          measurements := measurementFrame pm.updateInfo sims } ∧
      anchorStatesDf Real.log (filteredFrame (latents m) (stateRows sims)) m (pm.paramsIndex.zip (pm.paramsIndex.map val)) = .ok anchored ∧
      ∀ (i : Fin n), ∃ (e : Fin k) (s : Simulated (nLat m)), e.val = (if k = 1 then 0 else draws.element i) ∧ sims[i.val]? = some s ∧
        simulateIndividual root (simFixed custom m pm val n nT cov) (pm.updateInfo.map (labelRow m val)) (fun f => latName m f) policies ((labelCarry m val n k).states i) ((labelCarry m val n k).upperChols i) i
          (labelDraws draws i e) = .ok s := by
  have hg := hm.names
  obtain ⟨hc, ho, hclash⟩ := hm.anchoring
  have hk0 : pm.dimensions.nMixtures = k := ((hasNMixtures_of_ok hpm k).mp hm.mixture).symm
  have hmix0 : ¬HasNMixtures m 0 := fun h0 => by
    have := (hasNMixtures_of_ok hpm 0).mp h0
    have := hm.elements
    omega
  obtain ⟨controls, observed, hsd, hcon, hobs⟩ := simulationData_known hpm hg hclash hm.periods hi
  rw [hT] at hcon hobs
  have hvec : reindexParams nan params pm.paramsIndex = .ok (pm.paramsIndex.map val) := reindexParams_ok hparams.unique (fun l hl => hparams.values l ((mem_paramsIndex_iff hpm l).mp hl))
  obtain ⟨p, hparse⟩ := C64_parse_succeeds_partial hpm hg hc hm.safe hm.periods hmix0 Real.log n (pm.paramsIndex.map val) (by simp)
  obtain ⟨info, hinfo, hp⟩ : ∃ info, createParsingInfo pm.paramsIndex pm.updateInfo pm.labels pm.anchoring = .ok info ∧ parseParams Real.log (pm.paramsIndex.map val) info pm.dimensions pm.labels n = .ok p := by
    have h := hparse
    unfold Processed.parse at h
    obtain ⟨info', hi', h⟩ := py_bind_ok.mp h
    exact ⟨info', hi', h⟩
  obtain ⟨hfixed, hcarry, hrows⟩ := loop_inputs_exist hpm hg hc ho custom hT hparse nan hcon hobs
  rw [hk0] at hcarry
  -- the individuals
  have hall : ∀ t ≤ nT + 1, ∃ r ∈ pm.updateInfo.map (labelRow m val), r.period = t := by
    intro t ht
    obtain ⟨v, hvu⟩ := hm.updates t ((isPeriod_iff hpm t).mpr (by omega))
    obtain ⟨r, hr, h1, h2⟩ := ((C01_update_info_exact hpm).2.1 t v).mpr hvu
    exact ⟨_, List.mem_map.mpr ⟨r, hr, rfl⟩, h1⟩
  have hind : ∀ (i : Fin n), ∃ (e : Fin k) (s : Simulated (nLat m)), e.val = (if k = 1 then 0 else draws.element i) ∧ drawsFor k (nLat m) draws i.val = .ok (labelDraws draws i e) ∧
        simulateIndividual root (simFixed custom m pm val n nT cov) (pm.updateInfo.map (labelRow m val)) (fun f => latName m f) policies ((labelCarry m val n k).states i) ((labelCarry m val n k).upperChols i) i
          (labelDraws draws i e) = .ok s := by
    intro i
    obtain ⟨e, he, hde⟩ := drawsFor_ok (n := nLat m) hm.elements (draws := draws) (i := i) (fun h => hd h i i.isLt)
    obtain ⟨s, hs⟩ := (C57_accepts_iff root (simFixed custom m pm val n nT cov) (pm.updateInfo.map (labelRow m val)) (fun f => latName m f) policies ((labelCarry m val n k).states i)
      ((labelCarry m val n k).upperChols i) i (labelDraws draws i e)).mpr ⟨fun q hq hqt => by
        obtain ⟨⟨spec, hf⟩, hsd⟩ := hv.policies q hq ((isPeriod_iff hpm _).mpr (by omega))
        obtain ⟨j, hj⟩ := List.getElem?_of_mem (List.mem_map.mpr ⟨_, hf, rfl⟩ : q.factor ∈ m.factors.map Prod.fst)
        have hjl := (List.getElem?_eq_some_iff.mp hj).1
        rw [List.length_map] at hjl
        exact ⟨⟨⟨j, hjl⟩, Option.some.inj ((latName_get ⟨j, hjl⟩).symm.trans hj)⟩, hsd⟩, hall⟩
    exact ⟨e, s, he, hde, hs⟩
  choose e s he hde hs using hind
  have hinj : Function.Injective (fun f : Fin (nLat m) => latName m f) := fun a b h => latName_injective hg h
  -- the frame of anchored states
  have hstates : ∀ i, (s i).states.length = nT + 2 := fun i => (C56_simulation root hinj (hs i)).1.length
  obtain ⟨anchored, hanch, _⟩ := C54_anchored_states hpm hg hc ho hm.safe hm.periods hmix0 Real.log (df := filteredFrame (latents m) (stateRows (List.ofFn s))) (params := pm.paramsIndex.zip (pm.paramsIndex.map val)) (val := val)
    (fun l hl => lookup_of_mem (by
      rw [List.map_fst_zip (by simp)]
      exact C06_index_unique_partial hpm hg) (by
      obtain ⟨j, hj⟩ := List.getElem?_of_mem ((mem_paramsIndex_iff hpm l).mpr hl)
      refine List.mem_of_getElem? (i := j) (List.getElem?_zip_eq_some.mpr ⟨hj, ?_⟩)
      rw [List.getElem?_map, hj]
      rfl))
    (fun f hf => by
      obtain ⟨spec, hf⟩ := hf
      exact List.mem_append_left _ (List.mem_map.mpr ⟨_, hf, rfl⟩))
    (fun w hw => by
      obtain ⟨r, hr, rfl⟩ := List.mem_map.mp hw
      obtain ⟨x, hx, hr⟩ := List.mem_flatMap.mp hr
      obtain ⟨y, hy, rfl⟩ := List.mem_map.mp hr
      obtain ⟨i, hi'⟩ := List.mem_ofFn.mp (List.fst_mem_of_mem_zipIdx hx)
      have := List.snd_lt_of_mem_zipIdx hy
      rw [← hi', hstates] at this
      exact (isPeriod_iff hpm _).mpr (by dsimp only; omega))
  refine ⟨List.ofFn s, anchored, by simp, ?_, hanch, fun i => ⟨e i, s i, he i, by simp, hs i⟩⟩
  -- the computation
  have hmap : (List.finRange n).mapM (fun (i : Fin n) => do
      let d ← drawsFor k (nLat m) draws i.val
      simulateIndividual root (simFixed custom m pm val n nT cov) (pm.updateInfo.map (labelRow m val)) (fun f => (latents m).getD f "") policies ((labelCarry m val n k).states ⟨0, hn⟩)
        ((labelCarry m val n k).upperChols ⟨0, hn⟩) i d) = (.ok (List.ofFn s) : Py (List (Simulated (nLat m)))) := by
    rw [List.ofFn_eq_map]
    refine mapM_ok_of (fun i _ => ?_)
    rw [py_bind_ok]
    exact ⟨_, hde i, hs i⟩
  have hlat : pm.labels.latentFactors = latents m := (labels_of_ok hpm).1
  have hobsl : pm.labels.observedFactors = m.observedFactors.getD [] := (labels_of_ok hpm).2.1
  have hconl : pm.labels.controls = "constant" :: m.controls.getD [] := (labels_of_ok hpm).2.2.1
  have hall' : pm.labels.allFactors = allFactors m := (labels_of_ok hpm).2.2.2.2.1
  obtain ⟨d1, d2, d3⟩ := dimensions_eq hpm
  have hnone : (data.isNone && nObs.isNone) = false ∧ (data.isNone && decide (pm.labels.observedFactors ≠ [])) = false ∧ (data.isNone && decide (pm.labels.controls ≠ ["constant"])) = false := by
    cases hi with
    | ofData => simp
    | ofNumber h1 h2 => simp [hobsl, hconl, h1, h2]
  obtain ⟨n1, n2, n3⟩ := hnone
  have hw : checkWeights k ((labelCarry m val n k).logWeights ⟨0, hn⟩) = .ok () := by
    unfold checkWeights
    refine if_pos (Or.inr ?_)
    rw [← hv.sum]
    refine Finset.sum_congr rfl (fun e _ => ?_)
    exact Real.exp_log (hv.positive e e.isLt)
  have htrace := transition_label hpm hg.keys custom val 0 (hv.usable 0 hm.periods) (fun _ => 0)
  have hzeros : (allFactors m).map (fun _ => (0 : ℝ)) = List.replicate (nLat m + nObsd m) 0 := by
    rw [List.map_const']
    simp [allFactors]
  rw [hzeros] at htrace
  unfold simulateDataset
  rw [if_neg (by simp [n1])]
  simp only [bind, Except.bind]
  rw [hpm]
  simp only [n2, n3, Bool.false_eq_true, if_false]
  rw [hsd]
  simp only []
  rw [hvec]
  simp only []
  rw [hinfo]
  simp only []
  rw [hp]
  simp only []
  unfold simulateProcessed simulateArrays
  simp only [bind, Except.bind]
  rw [hall', hlat, d1, d2, d3, hk0, show pm.dimensions.nPeriods - 2 = nT by omega, hfixed]
  simp only []
  rw [hcarry]
  simp only []
  rw [hrows]
  simp only [dif_pos hn]
  rw [hw]
  simp only []
  rw [show transitionFunction (allFactors m) (transitionFns custom m) ((simFixed custom m pm val n nT cov).transition 0) (List.replicate (nLat m + nObsd m) 0) = _ from htrace]
  simp only []
  simp only [bind, Except.bind] at hmap
  rw [hmap]
  simp only []
  rw [hanch]
  rfl

end

end Skill
