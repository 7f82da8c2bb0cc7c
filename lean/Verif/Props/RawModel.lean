import Verif.Lemmas.RawModel
/-
C131: which model specifications pass the checks, for values of any type.
-/
namespace Skill

/-- **C131.** Whatever is passed as model specification, and whatever numpy does with stagemaps that are not lists or tuples of numbers: if the checks at the beginning of process_model pass, all sections have the documented
types. Therefore all other specifications are rejected. -/
theorem C131_only_well_formed (odd : PyVal → Nat → Py (List String)) (m : PyVal) (l : RawLabels) (h : rawProcess odd m = .ok l) :
    Spec.WellFormed m := by
  rw [rawProcess_ok_iff] at h
  obtain ⟨d, a, h1, h2, h3, h4⟩ := h
  obtain ⟨fs, lens, hf, hl, hmax, hob, hco, hopt⟩ := (rawDimensions_ok_iff m d.nPeriods).mp ⟨d, h1, rfl⟩
  obtain ⟨hs, ha, hfs⟩ := (rawCheckModel_ok_iff hf).mp h4
  have hst := rawLabels_stagemap h2
  rw [get_ok_iff] at hst
  refine ⟨⟨fs, d.nPeriods, hf, ?_, hfs, (maxPeriods_iff hfs hl).mp hmax, ?_, ?_⟩, hob, hco, hopt, ?_⟩
  · rintro rfl
    cases hl
    cases hmax
  · intro hno
    rcases hst.2 with hst | ⟨_, hst⟩
    · exact absurd hst (hno _)
    · rw [hst] at hs
      obtain ⟨sm, hsm, hv⟩ := (rawStagemap_nil_iff odd (default_numbers _) _).mp hs
      have := hv.length
      omega
  · intro v xs hv hx
    rcases hst.2 with hst | ⟨hst, _⟩
    · rw [← has_unique hv hst, rawStagemap_nil_iff odd ((numbers_iff _ _).mpr hx)] at hs
      exact hs
    · exact absurd hv (hst v)
  · intro kvs hk
    exact (rawAnchoring_dict hk).mp ⟨a, h3, ha⟩

/-- **C131.** If the stagemap is left out or a list or tuple of numbers, and the anchoring section is left out or a dictionary, the checks pass exactly for the specifications in which all sections have the documented types. -/
theorem C131_accepts_iff (odd : PyVal → Nat → Py (List String)) (m : PyVal) (hs : Spec.Optional m "stagemap" (fun v => ∃ xs, Spec.Numbers v xs))
    (ha : Spec.Optional m "anchoring" Spec.IsPyDict) :
    (∃ l, rawProcess odd m = .ok l) ↔ Spec.WellFormed m := by
  constructor
  · rintro ⟨l, h⟩
    exact C131_only_well_formed odd m l h
  · intro h
    obtain ⟨fs, n, hf, hne, hfs, hmax, hno, hsm⟩ := h.factors
    have hlens : ∃ lens, List.Forall₂ (fun (kv : Atom × PyVal) (k : Nat) => ∃ v, Spec.Has kv.2 "measurements" v ∧ v.len = .ok k) fs lens := by
      obtain ⟨lens, hl⟩ := mapM_exists (f := fun kv : Atom × PyVal => (do
        let measurements ← kv.2.getItem "measurements"
        measurements.len : Py Nat)) (xs := fs) (by
          intro kv hk
          obtain ⟨ms, hms, _⟩ := (hfs kv hk).ok
          exact ⟨_, py_bind_ok.mpr ⟨_, (getItem_ok_iff _ _ _).mpr hms, rfl⟩⟩)
      rw [mapM_ok_iff] at hl
      refine ⟨lens, hl.imp ?_⟩
      intro kv k hk
      obtain ⟨v, hv, hk⟩ := py_bind_ok.mp hk
      exact ⟨v, (getItem_ok_iff _ _ _).mp hv, hk⟩
    obtain ⟨lens, hl⟩ := hlens
    obtain ⟨d, hd, hdn⟩ := (rawDimensions_ok_iff m n).mpr ⟨fs, lens, hf, hl, (maxPeriods_iff hfs hl).mpr hmax, h.observedFactors, h.controls, h.estimationOptions⟩
    obtain ⟨l, hlab⟩ := rawLabels_ok (d := d) hf h.observedFactors h.controls
    have hanch : ∃ a, rawAnchoring m = .ok a ∧ rawCheckAnchoring a = [] := by
      by_cases hx : ∃ v, Spec.Has m "anchoring" v
      · obtain ⟨v, hv⟩ := hx
        obtain ⟨kvs, rfl⟩ := ha v hv
        exact (rawAnchoring_dict hv).mpr (h.anchoring kvs hv)
      · exact rawAnchoring_none (has_isPyDict hf) (fun v hv => hx ⟨v, hv⟩)
    obtain ⟨a, ha1, ha2⟩ := hanch
    have hst := rawLabels_stagemap hlab
    rw [get_ok_iff] at hst
    have hr : rawStagemap odd l.stagemap d.nPeriods = .ok [] := by
      rcases hst.2 with hst | ⟨hst, e⟩
      · obtain ⟨xs, hx⟩ := hs _ hst
        rw [rawStagemap_nil_iff odd ((numbers_iff _ _).mpr hx), hdn]
        exact hsm _ xs hst hx
      · rw [e, rawStagemap_nil_iff odd (default_numbers _)]
        refine ⟨_, rfl, validStagemap_default _ ?_⟩
        rw [hdn]
        exact hno hst
    exact ⟨l, (rawProcess_ok_iff odd m l).mpr ⟨d, a, hd, hlab, ha1, (rawCheckModel_ok_iff hf).mpr ⟨hr, ha2, hfs⟩⟩⟩

/-! ### The typed model -/

theorem lookupKey_append (a b : List (Atom × PyVal)) (k : Atom) : lookupKey (a ++ b) k = (lookupKey a k).or (lookupKey b k) := by
  unfold lookupKey
  rw [List.find?_append]
  cases a.find? (fun kv => kv.1.pyEq k) <;> rfl

theorem lookupKey_opt {β : Type} (key key' : String) (f : β → PyVal) (o : Option β) :
    lookupKey (Spec.optEntry key f o) (.str key') = if key = key' then o.map f else none := by
  unfold lookupKey
  cases o with
  | none => simp [Spec.optEntry]
  | some v =>
    by_cases h : key = key' <;> simp [Spec.optEntry, pyEq_str, h]

theorem lookupKey_cons (key key' : String) (v : PyVal) (l : List (Atom × PyVal)) :
    lookupKey ((.str key, v) :: l) (.str key') = if key = key' then some v else lookupKey l (.str key') := by
  unfold lookupKey
  by_cases h : key = key' <;> simp [pyEq_str, h]

theorem lookupKey_nil (k : Atom) : lookupKey [] k = none := rfl

theorem pyModel_sections (m : ModelDict Rat) : ∃ kvs, Spec.pyModel m = .dict kvs ∧
    lookupKey kvs (.str "factors") = some (.dict (m.factors.map (fun kv => (.str kv.1, Spec.pyFactor kv.2)))) ∧
    lookupKey kvs (.str "observed_factors") = m.observedFactors.map Spec.pyStrs ∧
    lookupKey kvs (.str "controls") = m.controls.map Spec.pyStrs ∧
    lookupKey kvs (.str "stagemap") = m.stagemap.map (fun l => .list (l.map (fun z => .atom (.int z)))) ∧
    lookupKey kvs (.str "anchoring") = m.anchoring.map Spec.pyAnchoring ∧
    lookupKey kvs (.str "estimation_options") = m.estimationOptions.map Spec.pyOptions := by
  refine ⟨_, rfl, ?_⟩
  simp [lookupKey_append, lookupKey_opt, lookupKey_cons, lookupKey_nil]

theorem pyFactor_sections (s : FactorSpec Rat) : ∃ kvs, Spec.pyFactor s = .dict kvs ∧
    lookupKey kvs (.str "measurements") = some (.list (s.measurements.map Spec.pyStrs)) ∧
    lookupKey kvs (.str "normalizations") = s.normalizations.map (fun n => .dict (Spec.optEntry "loadings" Spec.pyNorms n.loadings ++ Spec.optEntry "intercepts" Spec.pyNorms n.intercepts)) := by
  refine ⟨_, rfl, ?_⟩
  simp [lookupKey_append, lookupKey_opt, lookupKey_cons, lookupKey_nil]

theorem pyAnchoring_sections (a : AnchoringSpec) : ∃ kvs, Spec.pyAnchoring a = .dict kvs ∧
    lookupKey kvs (.str "outcomes") = a.outcomes.map (fun o => .dict (o.map (fun kv => (.str kv.1, Spec.pyStr kv.2)))) ∧
    lookupKey kvs (.str "free_controls") = a.freeControls.map (fun b => .atom (.bool b)) ∧
    lookupKey kvs (.str "free_constant") = a.freeConstant.map (fun b => .atom (.bool b)) ∧
    lookupKey kvs (.str "free_loadings") = a.freeLoadings.map (fun b => .atom (.bool b)) := by
  refine ⟨_, rfl, ?_⟩
  simp [lookupKey_append, lookupKey_opt]

theorem pyOptions_sections (o : EstSpec Rat) : ∃ kvs, Spec.pyOptions o = .dict kvs ∧
    lookupKey kvs (.str "n_mixtures") = o.nMixtures.map (fun (k : Nat) => .atom (.int k)) := by
  refine ⟨_, rfl, ?_⟩
  simp [lookupKey_append, lookupKey_opt]

theorem py_getItem (kvs : List (Atom × PyVal)) (key : String) {v : PyVal} (h : lookupKey kvs (.str key) = some v) : (PyVal.dict kvs).getItem key = .ok v := by
  simp only [PyVal.getItem, h]; rfl

theorem pyFactor_measurements (s : FactorSpec Rat) : (Spec.pyFactor s).getItem "measurements" = .ok (.list (s.measurements.map Spec.pyStrs)) := by
  obtain ⟨kvs, h, h1, _⟩ := pyFactor_sections s
  rw [h]
  exact py_getItem _ _ h1

theorem strs_len (o : Option (List String)) : ((o.map Spec.pyStrs).getD (.list [])).len = .ok (o.getD []).length := by
  cases o <;> simp [Spec.pyStrs, PyVal.len]

theorem rawDimensions_pyModel (m : ModelDict Rat) : rawDimensions (Spec.pyModel m)
    = (getDimensions m).map (fun d => { nPeriods := d.nPeriods, nControls := d.nControls, nMixtures := .atom (.int d.nMixtures) }) := by
  obtain ⟨kvs, h, h1, h2, h3, _, _, h6⟩ := pyModel_sections m
  unfold rawDimensions getDimensions
  rw [h]
  rw [py_getItem _ _ h1]
  have hl : (m.factors.map (fun kv => ((Atom.str kv.1, Spec.pyFactor kv.2) : Atom × PyVal))).mapM (fun kv => (do
      let measurements ← kv.2.getItem "measurements"
      measurements.len : Py Nat)) = .ok (m.factors.map (fun fs => fs.2.measurements.length)) := by
    rw [mapM_ok_iff, List.forall₂_map_left_iff, List.forall₂_map_right_iff]
    apply List.forall₂_same.mpr
    intro kv _
    rw [pyFactor_measurements]
    simp [bind, Except.bind, PyVal.len]
  simp only [bind, Except.bind, PyVal.items] at hl ⊢
  rw [hl]
  simp only [PyVal.get, h2, h3, strs_len]
  cases hm : pyMax (m.factors.map (fun fs => fs.2.measurements.length)) with
  | error e => rfl
  | ok n =>
    cases ho : m.estimationOptions with
    | none =>
      simp only [PyVal.getItem, h6, ho]
      rfl
    | some o =>
      rw [ho] at h6
      obtain ⟨ks, hk, hk1⟩ := pyOptions_sections o
      simp only [PyVal.getItem, h6, Option.map_some, Option.elim, hk, hk1]
      cases o.nMixtures <;> rfl

theorem strs_toList (o : Option (List String)) : ((o.map Spec.pyStrs).getD (.list [])).toList = .ok ((o.getD []).map Spec.pyStr) := by
  cases o <;> simp [Spec.pyStrs, PyVal.toList]

theorem rawLabels_pyModel (m : ModelDict Rat) (d : Dimensions) (rd : RawDimensions) (hd : rd.nPeriods = d.nPeriods) :
    rawLabels (Spec.pyModel m) rd = .ok (RawLabels.mk ((getLabels m d).latentFactors.map Spec.pyStr) ((getLabels m d).observedFactors.map Spec.pyStr)
      ((getLabels m d).controls.map Spec.pyStr) (.list ((getLabels m d).stagemap.map (fun z => .atom (.int z))))) := by
  obtain ⟨kvs, h, h1, h2, h3, h4, _, _⟩ := pyModel_sections m
  unfold rawLabels
  rw [h, py_getItem _ _ h1]
  simp only [bind, Except.bind, PyVal.get, h2, h3, h4, strs_toList, hd]
  simp only [PyVal.toList, getLabels, Dict.keys, List.map_map, pure, Except.pure, List.map_cons]
  cases m.stagemap with
  | none => simp [Function.comp_def, Spec.pyStr]
  | some l => simp [Function.comp_def, Spec.pyStr]

theorem rawAnchoring_pyModel (m : ModelDict Rat) : ∃ a, rawAnchoring (Spec.pyModel m) = .ok a ∧ rawCheckAnchoring a = [] := by
  obtain ⟨kvs, h, _, _, _, _, h5, _⟩ := pyModel_sections m
  cases ha : m.anchoring with
  | none =>
    rw [ha] at h5
    apply rawAnchoring_none ⟨kvs, h⟩
    intro v hv
    rw [h, has_dict, h5] at hv
    cases hv
  | some a =>
    rw [ha] at h5
    obtain ⟨ks, hk, k1, k2, k3, k4⟩ := pyAnchoring_sections a
    rw [Option.map_some, hk] at h5
    have hh : Spec.Has (Spec.pyModel m) "anchoring" (.dict ks) := by rw [h, has_dict]; exact h5
    rw [rawAnchoring_dict hh]
    have hb : ∀ (key : String) (o : Option Bool), lookupKey ks (.str key) = o.map (fun b => .atom (.bool b)) → Spec.Optional (.dict ks) key Spec.IsBool := by
      intro key o ho v hv
      rw [has_dict, ho, Option.map_eq_some_iff] at hv
      obtain ⟨b, _, rfl⟩ := hv
      cases b
      · exact Or.inr rfl
      · exact Or.inl rfl
    refine ⟨?_, hb _ _ k2, hb _ _ k3, hb _ _ k4⟩
    intro v hv
    rw [has_dict, k1, Option.map_eq_some_iff] at hv
    obtain ⟨o, _, rfl⟩ := hv
    refine ⟨_, rfl, ?_⟩
    intro kv hkv
    rw [List.mem_map] at hkv
    obtain ⟨x, _, rfl⟩ := hkv
    exact Or.inl ⟨_, rfl⟩

theorem pyNorms_normDicts (l : List (Dict Rat)) : (Spec.pyNorms l).normDicts
    = some (l.map (fun d => d.map (fun kv => ((Atom.str kv.1, PyVal.atom (.float kv.2)) : Atom × PyVal)))) := by
  rw [normDicts_iff, List.map_map]
  rfl

theorem rawCheckPresent_pyNorms (l : List (Dict Rat)) (ms : List (List String)) :
    rawCheckPresent (l.map (fun d => d.map (fun kv => ((Atom.str kv.1, PyVal.atom (.float kv.2)) : Atom × PyVal)))) (.list (ms.map Spec.pyStrs))
      = checkNormalizedVariablesArePresent l ms := by
  have hc : ∀ (p : List String) (v : String), (p.map Spec.pyStr).any (PyVal.eqAtom (.str v)) = p.contains v := by
    intro p v
    rw [Bool.eq_iff_iff, any_eqAtom_iff]
    simp only [List.mem_map, Spec.pyStr, PyVal.atom.injEq, List.contains_iff_mem, Spec.SameName]
    constructor
    · rintro ⟨a, ⟨s, hs, rfl⟩, h | ⟨x, h, _⟩⟩
      · cases h; exact hs
      · cases h
    · intro h
      exact ⟨_, ⟨v, h, rfl⟩, Or.inl rfl⟩
  have hone : ∀ (t : Nat) (v : String) (x : Rat), (do
      let meas ← (PyVal.list (ms.map Spec.pyStrs)).index t
      let found ← meas.contains (Atom.str v)
      pure (if found then [] else ["not a measurement: " ++ (Atom.str v).text]) : Py (List String)) = (do
      let meas ← pyIndex ms t
      pure (if meas.contains v then [] else ["not a measurement: " ++ v])) := by
    intro t v x
    simp only [PyVal.index, pyIndex, List.getElem?_map]
    cases hm : ms[t]? with
    | none => rfl
    | some period =>
      show (Except.ok (if (period.map Spec.pyStr).any (PyVal.eqAtom (.str v)) then [] else [_]) : Py (List String)) = Except.ok (if period.contains v then [] else [_])
      rw [hc]
      rfl
  unfold rawCheckPresent checkNormalizedVariablesArePresent
  have hz : (l.map (fun d => d.map (fun kv => ((Atom.str kv.1, PyVal.atom (.float kv.2)) : Atom × PyVal)))).zipIdx
      = l.zipIdx.map (fun x => (x.1.map (fun kv => ((Atom.str kv.1, PyVal.atom (.float kv.2)) : Atom × PyVal)), x.2)) := by
    rw [List.zipIdx_map]
    rfl
  rw [hz, List.mapM_map]
  have hf : ∀ x : Dict Rat × Nat, (x.1.map (fun kv => ((Atom.str kv.1, PyVal.atom (.float kv.2)) : Atom × PyVal))).mapM (fun kv => (do
      let meas ← (PyVal.list (ms.map Spec.pyStrs)).index x.2
      let found ← meas.contains kv.1
      pure (if found then [] else ["not a measurement: " ++ kv.1.text]) : Py (List String))) = x.1.mapM (fun kv => (do
      let meas ← pyIndex ms x.2
      pure (if meas.contains kv.1 then [] else ["not a measurement: " ++ kv.1]) : Py (List String))) := by
    intro x
    rw [List.mapM_map]
    congr 1
    funext kv
    exact hone x.2 kv.1 kv.2
  simp only [Function.comp_def, hf]

theorem rawCheckNotZero_pyNorms (l : List (Dict Rat)) :
    rawCheckNotZero (l.map (fun d => d.map (fun kv => ((Atom.str kv.1, PyVal.atom (.float kv.2)) : Atom × PyVal)))) = checkLoadingsNotZero l := by
  have hone : ∀ kv : String × Rat, (if (PyVal.atom (.float kv.2)).eqAtom (.int 0) then ["normalized to 0: " ++ (Atom.str kv.1).text] else [])
      = if kv.2 = 0 then ["normalized to 0: " ++ kv.1] else [] := by
    intro kv
    have h : (PyVal.atom (.float kv.2)).eqAtom (.int 0) = decide (kv.2 = 0) := by
      simp [PyVal.eqAtom, Atom.pyEq, Atom.num]
    rw [h]
    by_cases hk : kv.2 = 0
    · rw [if_pos hk, if_pos (decide_eq_true hk)]
      rfl
    · rw [if_neg hk, if_neg]
      rw [decide_eq_false hk]
      exact Bool.false_ne_true
  unfold rawCheckNotZero checkLoadingsNotZero
  rw [List.flatMap_map]
  refine List.flatMap_congr (fun d _ => ?_)
  rw [List.flatMap_map]
  exact List.flatMap_congr (fun kv _ => hone kv)

theorem py_get {kvs : List (Atom × PyVal)} {key : String} {o : Option PyVal} (h : lookupKey kvs (.str key) = o) (d : PyVal) :
    (PyVal.dict kvs).get key d = .ok (o.getD d) := by
  simp only [PyVal.get, h]

/-- The check of one factor. -/
theorem rawCheckNormalizations_pyFactor (s : FactorSpec Rat) : rawCheckNormalizations (Spec.pyFactor s) = (do
    let norminfo := s.normalizations.getD {}
    let load := norminfo.loadings.getD []
    let r1 ← checkNormalizedVariablesArePresent load s.measurements
    let r2 := checkLoadingsNotZero load
    let inter := norminfo.intercepts.getD []
    let r3 ← checkNormalizedVariablesArePresent inter s.measurements
    pure (r1 ++ r2 ++ r3)) := by
  have hm := pyFactor_measurements s
  obtain ⟨kvs, h, h1, h2⟩ := pyFactor_sections s
  rw [h] at hm
  unfold rawCheckNormalizations
  rw [h, py_get h2]
  have hnorm : ∃ ks : List (Atom × PyVal), (s.normalizations.map (fun n => PyVal.dict (Spec.optEntry "loadings" Spec.pyNorms n.loadings ++ Spec.optEntry "intercepts" Spec.pyNorms n.intercepts))).getD (.dict [])
      = .dict ks ∧ lookupKey ks (.str "loadings") = (s.normalizations.getD {}).loadings.map Spec.pyNorms ∧ lookupKey ks (.str "intercepts") = (s.normalizations.getD {}).intercepts.map Spec.pyNorms := by
    cases s.normalizations with
    | none => exact ⟨[], rfl, rfl, rfl⟩
    | some n =>
      refine ⟨_, rfl, ?_⟩
      simp [lookupKey_append, lookupKey_opt]
  obtain ⟨ks, e, k1, k2⟩ := hnorm
  rw [e]
  have hd : ∀ o : Option (List (Dict Rat)), ((o.map Spec.pyNorms).getD (.list [])).normDicts
      = some ((o.getD []).map (fun d => d.map (fun kv => ((Atom.str kv.1, PyVal.atom (.float kv.2)) : Atom × PyVal)))) := by
    intro o
    cases o with
    | none => rfl
    | some l => exact pyNorms_normDicts l
  show (do
    let loadings ← (PyVal.dict ks).get "loadings" (.list [])
    let r1 ← match loadings.normDicts with
      | none => pure ["normalizations"]
      | some ds => do
        let r ← rawCheckPresent ds (← (PyVal.dict kvs).getItem "measurements")
        pure (r ++ rawCheckNotZero ds)
    let intercepts ← (PyVal.dict ks).get "intercepts" (.list [])
    let r2 ← match intercepts.normDicts with
      | none => pure ["normalizations"]
      | some ds => do
        let r ← rawCheckPresent ds (← (PyVal.dict kvs).getItem "measurements")
        pure r
    pure (r1 ++ r2)) = _
  simp only [py_get k1, py_get k2, hm, hd, rawCheckPresent_pyNorms, rawCheckNotZero_pyNorms, bind, Except.bind]
  cases checkNormalizedVariablesArePresent ((s.normalizations.getD {}).loadings.getD []) s.measurements with
  | error e => rfl
  | ok r =>
    cases checkNormalizedVariablesArePresent ((s.normalizations.getD {}).intercepts.getD []) s.measurements with
    | error e => rfl
    | ok r' => rfl

theorem mapM_map_pyFactor {γ : Type} (fs : Dict (FactorSpec Rat)) (f : PyVal → Py γ) (g : FactorSpec Rat → Py γ) (h : ∀ s, f (Spec.pyFactor s) = g s) :
    (fs.map (fun kv => ((Atom.str kv.1, Spec.pyFactor kv.2) : Atom × PyVal))).mapM (fun kv => f kv.2) = fs.mapM (fun kv => g kv.2) := by
  rw [List.mapM_map]
  congr 1
  funext kv
  exact h kv.2

theorem rawCheckModel_pyModel (odd : PyVal → Nat → Py (List String)) (m : ModelDict Rat) (d : Dimensions) (l : RawLabels) (rd : RawDimensions) (a : RawAnchoring)
    (hd : rd.nPeriods = d.nPeriods) (hl : l.stagemap = .list ((getLabels m d).stagemap.map (fun z => .atom (.int z)))) (ha : rawCheckAnchoring a = []) :
    rawCheckModel odd (Spec.pyModel m) l rd a = checkModel m (getLabels m d) d := by
  obtain ⟨kvs, h, h1, _⟩ := pyModel_sections m
  have hn : l.stagemap.numbers = some ((getLabels m d).stagemap.map (fun (z : Int) => (z : Rat))) := by
    rw [hl, PyVal.numbers, option_mapM_iff, List.forall₂_map_left_iff, List.forall₂_map_right_iff]
    apply List.forall₂_same.mpr
    intro z _
    rfl
  have hm : (m.factors.map (fun kv => ((Atom.str kv.1, Spec.pyFactor kv.2) : Atom × PyVal))).mapM (fun kv => (do
      let measurements ← kv.2.getItem "measurements"
      pure (rawCheckMeasurements measurements) : Py (List String))) = .ok (m.factors.map (fun _ => [])) := by
    rw [mapM_ok_iff, List.forall₂_map_left_iff, List.forall₂_map_right_iff]
    apply List.forall₂_same.mpr
    intro kv _
    refine py_bind_ok.mpr ⟨_, pyFactor_measurements _, ?_⟩
    congr 1
    rw [rawCheckMeasurements_nil_iff]
    refine ⟨kv.2.measurements.map (fun p => p.map Spec.pyStr), ?_, ?_⟩
    · rw [List.map_map]; rfl
    · intro p hp x hx
      rw [List.mem_map] at hp
      obtain ⟨q, _, rfl⟩ := hp
      rw [List.mem_map] at hx
      obtain ⟨s, _, rfl⟩ := hx
      exact Or.inl ⟨_, rfl⟩
  unfold rawCheckModel checkModel checkNormalizations
  rw [rawStagemap_cast odd hn, h, py_getItem _ _ h1, hd, ha]
  have hnm := mapM_map_pyFactor m.factors rawCheckNormalizations _ rawCheckNormalizations_pyFactor
  have hnil : (m.factors.map (fun _ => ([] : List String))).flatten = [] := by
    rw [List.flatten_eq_nil_iff]
    intro x hx
    rw [List.mem_map] at hx
    obtain ⟨_, _, rfl⟩ := hx
    rfl
  have hs : (getLabels m d).stages = npUnique (getLabels m d).stagemap := rfl
  show (do
    let r3 ← (m.factors.map (fun (kv : String × FactorSpec Rat) => ((Atom.str kv.1, Spec.pyFactor kv.2) : Atom × PyVal))).mapM (fun (kv : Atom × PyVal) => (do
      let measurements ← kv.2.getItem "measurements"
      pure (rawCheckMeasurements measurements) : Py (List String)))
    let r4 ← (m.factors.map (fun (kv : String × FactorSpec Rat) => ((Atom.str kv.1, Spec.pyFactor kv.2) : Atom × PyVal))).mapM (fun (kv : Atom × PyVal) => rawCheckNormalizations kv.2)
    if checkStagemap (getLabels m d).stagemap (npUnique (getLabels m d).stagemap) d.nPeriods ++ [] ++ r3.flatten ++ r4.flatten ≠ [] then .error .valueError else .ok ()) = _
  rw [hm, hnm, hs]
  generalize (m.factors.mapM (_ : String × FactorSpec Rat → Py (List String))) = x
  cases x with
  | error e => rfl
  | ok r =>
    show (if _ ++ [] ++ (m.factors.map (fun _ => ([] : List String))).flatten ++ r.flatten ≠ [] then Except.error PyErr.valueError else Except.ok ()) = _
    rw [hnil, List.append_nil, List.append_nil]
    rfl

/-- **C131.** For specifications that consist of the documented types, the checks on Python values do exactly what the other files of the model say about typed specifications: the same results and the same errors. -/
theorem C131_typed_model (odd : PyVal → Nat → Py (List String)) (m : ModelDict Rat) :
    rawProcess odd (Spec.pyModel m) = (do
      let d ← getDimensions m
      let l := getLabels m d
      checkModel m l d
      pure (RawLabels.mk (l.latentFactors.map Spec.pyStr) (l.observedFactors.map Spec.pyStr) (l.controls.map Spec.pyStr)
        (.list (l.stagemap.map (fun z => .atom (.int z)))))) := by
  unfold rawProcess
  rw [rawDimensions_pyModel]
  cases hd : getDimensions m with
  | error e => rfl
  | ok d =>
    obtain ⟨a, ha, hc⟩ := rawAnchoring_pyModel m
    show (do
      let l ← rawLabels (Spec.pyModel m) _
      let a ← rawAnchoring (Spec.pyModel m)
      rawCheckModel odd (Spec.pyModel m) l _ a
      pure l) = _
    rw [rawLabels_pyModel m d _ rfl, ha]
    show (do
      rawCheckModel odd (Spec.pyModel m) _ _ a
      pure _) = _
    rw [rawCheckModel_pyModel odd m d _ _ a rfl rfl hc]
    rfl

/-- **C131.** process_model accepts no typed specification that the checks on Python values reject. -/
theorem C131_typed_accepted (odd : PyVal → Nat → Py (List String)) (m : ModelDict Rat) (pm : Processed Rat) (h : processModel m = .ok pm) :
    ∃ l, rawProcess odd (Spec.pyModel m) = .ok l ∧ l.latentFactors = pm.labels.latentFactors.map Spec.pyStr ∧
      l.observedFactors = pm.labels.observedFactors.map Spec.pyStr ∧ l.controls = pm.labels.controls.map Spec.pyStr := by
  rw [processModel_ok_iff] at h
  obtain ⟨hd, hc, _, hl, _⟩ := h
  rw [C131_typed_model, hl]
  exact ⟨_, py_bind_ok.mpr ⟨_, hd, py_bind_ok.mpr ⟨(), hc, rfl⟩⟩, rfl, rfl, rfl⟩

/-! ### Sections that are not checked -/

/-- **C131 (what is not checked).** If the controls are a string instead of a list of strings and the rest of the specification is accepted, the characters of the string become the controls (`Ex.C131_example_string` shows that such a specification is accepted). -/
theorem C131_controls_string (odd : PyVal → Nat → Py (List String)) (m : PyVal) (l : RawLabels) (s : String) (h : rawProcess odd m = .ok l)
    (hc : Spec.Has m "controls" (.atom (.str s))) :
    l.controls = .atom (.str "constant") :: s.toList.map (fun c => .atom (.str (String.singleton c))) := by
  rw [rawProcess_ok_iff] at h
  obtain ⟨d, a, _, h2, _, _⟩ := h
  unfold rawLabels at h2
  obtain ⟨sm, hs, h2⟩ := py_bind_ok.mp h2
  obtain ⟨_, _, h2⟩ := py_bind_ok.mp h2
  obtain ⟨_, _, h2⟩ := py_bind_ok.mp h2
  obtain ⟨_, _, h2⟩ := py_bind_ok.mp h2
  obtain ⟨_, _, h2⟩ := py_bind_ok.mp h2
  obtain ⟨co, h3, h2⟩ := py_bind_ok.mp h2
  obtain ⟨k2, h4, h2⟩ := py_bind_ok.mp h2
  cases h2
  rw [get_ok_iff] at h3
  rcases h3.2 with h3 | ⟨h3, _⟩
  · rw [← has_unique hc h3] at h4
    cases h4
    rfl
  · exact absurd hc (h3 _)

/-! ### Examples -/

namespace Ex

/-- The model of an example as it is read from a yaml file. -/
def rawModel (controls : PyVal) (loading : PyVal) (measurements : PyVal) : PyVal :=
  .dict [(.str "factors", .dict [(.str "skill", .dict [(.str "measurements", measurements),
        (.str "normalizations", .dict [(.str "loadings", .list [.dict [(.str "y1", loading)], .dict []])]), (.str "transition_function", .atom (.str "linear"))])]),
    (.str "controls", controls), (.str "stagemap", .list [.atom (.int 0)]),
    (.str "anchoring", .dict [(.str "outcomes", .dict [(.str "skill", .atom (.str "q1"))]), (.str "free_constant", .atom (.bool true))]),
    (.str "estimation_options", .dict [])]

/-- The measurements of the example. -/
def rawMeasurements : PyVal := .list [.list [.atom (.str "y1"), .atom (.str "y2")], .list [.atom (.str "y1")]]

/-- Is the specification accepted? -/
def rawAccepted (m : PyVal) : Bool :=
  match rawProcess (fun _ _ => .error .typeError) m with
  | .ok _ => true
  | .error _ => false

theorem rawAccepted_iff (m : PyVal) : rawAccepted m = true ↔ ∃ l, rawProcess (fun _ _ => .error .typeError) m = .ok l := by
  unfold rawAccepted
  cases rawProcess (fun _ _ => .error .typeError) m <;> simp

/-- The example satisfies the hypotheses of `C131_only_well_formed` and `C131_accepts_iff`, and is well formed. -/
theorem C131_example : (∃ l, rawProcess (fun _ _ => .error .typeError) (rawModel (.list [.atom (.str "x1")]) (.atom (.int 1)) rawMeasurements) = .ok l) ∧
    Spec.Optional (rawModel (.list [.atom (.str "x1")]) (.atom (.int 1)) rawMeasurements) "stagemap" (fun v => ∃ xs, Spec.Numbers v xs) ∧
    Spec.Optional (rawModel (.list [.atom (.str "x1")]) (.atom (.int 1)) rawMeasurements) "anchoring" Spec.IsPyDict ∧
    Spec.WellFormed (rawModel (.list [.atom (.str "x1")]) (.atom (.int 1)) rawMeasurements) := by
  have h : ∃ l, rawProcess (fun _ _ => .error .typeError) (rawModel (.list [.atom (.str "x1")]) (.atom (.int 1)) rawMeasurements) = .ok l :=
    (rawAccepted_iff _).mp (by decide +kernel)
  refine ⟨h, ?_, ?_, C131_only_well_formed _ _ _ h.choose_spec⟩
  · intro v hv
    rw [has_unique hv ((has_dict _ _ (.list [.atom (.int 0)])).mpr (by rfl))]
    exact ⟨[0], _, Or.inl rfl, .cons (Or.inl ⟨0, rfl, by norm_num⟩) .nil⟩
  · intro v hv
    rw [has_unique hv ((has_dict _ _ (.dict [(.str "outcomes", .dict [(.str "skill", .atom (.str "q1"))]), (.str "free_constant", .atom (.bool true))])).mpr (by rfl))]
    exact ⟨_, rfl⟩

/-- Specifications that are not well formed: measurements that are not lists of lists, and a loading that is normalized to False. -/
theorem C131_example_rejected (odd : PyVal → Nat → Py (List String)) (l : RawLabels) :
    rawProcess odd (rawModel (.list []) (.atom (.int 1)) (.list [.atom (.str "y1"), .list []])) ≠ .ok l ∧
    rawProcess odd (rawModel (.list []) (.atom (.bool false)) rawMeasurements) ≠ .ok l := by
  have hfac : ∀ loading measurements, Spec.Has (rawModel (.list []) loading measurements) "factors" (.dict [(.str "skill", .dict [(.str "measurements", measurements),
        (.str "normalizations", .dict [(.str "loadings", .list [.dict [(.str "y1", loading)], .dict []])]), (.str "transition_function", .atom (.str "linear"))])]) :=
    fun loading measurements => (has_dict _ _ _).mpr rfl
  constructor
  · intro h
    have e := C131_only_well_formed _ _ _ h
    obtain ⟨fs, n, hf, _, hfs, _⟩ := e.factors
    cases has_unique hf (hfac _ _)
    obtain ⟨ms, hms, _⟩ := (hfs _ List.mem_cons_self).ok
    have e := has_unique hms ((has_dict _ _ (.list [.atom (.str "y1"), .list []])).mpr rfl)
    cases ms with
    | nil => cases e
    | cons a as => cases e
  · intro h
    have e := C131_only_well_formed _ _ _ h
    obtain ⟨fs, n, hf, _, hfs, _⟩ := e.factors
    cases has_unique hf (hfac _ _)
    obtain ⟨ms, _, _, hno⟩ := (hfs _ List.mem_cons_self).ok
    have h1 := (hno _ ((has_dict _ _ (.dict [(.str "loadings", .list [.dict [(.str "y1", .atom (.bool false))], .dict []])])).mpr rfl)).2.1
    have h2 := (h1 _ ((has_dict _ _ (.list [.dict [(.str "y1", .atom (.bool false))], .dict []])).mpr rfl)).2
    exact h2 _ rfl _ List.mem_cons_self _ List.mem_cons_self ⟨_, rfl, Spec.IsNumber.false⟩

/-- A string as controls is accepted: `controls: age` in a yaml file leads to the controls a, g and e. -/
theorem C131_example_string : ∃ l, rawProcess (fun _ _ => .error .typeError) (rawModel (.atom (.str "age")) (.atom (.int 1)) rawMeasurements) = .ok l ∧
    l.controls = [.atom (.str "constant"), .atom (.str "a"), .atom (.str "g"), .atom (.str "e")] := by
  have h : ∃ l, rawProcess (fun _ _ => .error .typeError) (rawModel (.atom (.str "age")) (.atom (.int 1)) rawMeasurements) = .ok l :=
    (rawAccepted_iff _).mp (by decide +kernel)
  obtain ⟨l, hl⟩ := h
  refine ⟨l, hl, ?_⟩
  rw [C131_controls_string _ _ _ "age" hl ((has_dict _ _ _).mpr rfl)]
  have hc : "age".toList.map String.singleton = ["a", "g", "e"] := by decide +kernel
  have hm : "age".toList.map (fun c => PyVal.atom (.str (String.singleton c))) = ("age".toList.map String.singleton).map (fun s => PyVal.atom (.str s)) := by
    rw [List.map_map]
    rfl
  rw [hm, hc]
  rfl

end Ex
end Skill
