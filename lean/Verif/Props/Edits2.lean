import Verif.Props.Edits
/- C117: removing controls. -/
namespace Skill
open Spec

/-! ### the same updates -/

/-- The contributions of an individual to the likelihood of an edited model with the same updates. -/
theorem edited_same (qr : QR) {m m' : ModelDict ℝ} (he : EditOf m m') {pm pm' : Processed ℝ} (hpm : processModel m = .ok pm) (hpm' : processModel m' = .ok pm') (hg : GoodNames m) (hc : CleanAnchoring m) (ho : SameOrder m)
    (hclash : NoNameClash m) (hper : IsPeriod m 1) (hT' : pm'.dimensions.nPeriods = pm.dimensions.nPeriods) (hupd : pm'.updateInfo = pm.updateInfo)
    {custom : String → CustomFn} {nan : ℝ} {val : Loc → ℝ} {df : LongData ℝ} {ids pers : List Int} {inputs inputs' : MaximizationInputs} {params params' : List (Loc × ℝ)} {out out' : LoglikeOutput}
    (hi : IndexOk df) (hu : NoUnusedPeriods df) (hids : IdsOf df ids) (hpers : PeriodsOf df pers) (hn : (params.map Prod.fst).Nodup) (hval : ∀ l x, (l, x) ∈ params → x = val l) (hn' : (params'.map Prod.fst).Nodup)
    (hval' : ∀ l x, (l, x) ∈ params' → x = val l) (hin : getMaximizationInputs m df = .ok inputs) (hin' : getMaximizationInputs m' df = .ok inputs') (hout : inputs.loglike qr custom nan m params = .ok out)
    (hout' : inputs'.loglike qr custom nan m' params' = .ok out') {i : ℕ} (hil : i < ids.length)
    (htrans : ∀ t, IsPeriod m t → IsPeriod m (t + 1) → ∀ s : List ℝ, s.length = nLat m + nObsd m →
      transitionFunction (allFactors m) (transitionFns custom m) (transParams pm val t) s = transitionFunction (allFactors m') (transitionFns custom m') (transParams pm' val t) s)
    (hinc : ∀ t, IsPeriod m t → ∀ r, RowOf df ids pers i t r → (IncompleteControls m' r t ↔ IncompleteControls m r t))
    (hzero : ∀ t v c, IsUpdate m' t v → c ∈ m.controls.getD [] → c ∉ m'.controls.getD [] → val ⟨.controls, t, v, c⟩ = 0) :
    (∀ k, entry2 out'.allContributions k i = entry2 out.allContributions k i) ∧ out'.contributions[i]? = out.contributions[i]? := by
  have h1 := (isPeriod_iff hpm 1).mp hper
  obtain ⟨nT, hT⟩ : ∃ nT, pm.dimensions.nPeriods = nT + 2 := ⟨pm.dimensions.nPeriods - 2, by omega⟩
  have hP : ∀ t, t < nT + 2 → IsPeriod m t := fun t ht => (isPeriod_iff hpm t).mpr (by omega)
  obtain ⟨K, F, D, _, hr, hr'⟩ := edited_run qr he hpm hpm' hg hc ho hclash hT (hT'.trans hT) le_rfl (fun r hr => by rw [hupd] at hr; exact hr) custom nan hi hu hids hpers hn hval hn' hval' hin hin' hout hout' hil
    (fun t ht s hs => htrans t (hP t (by omega)) (hP (t + 1) ht) s hs) (fun t ht r hrow => hinc t (hP t ht) r hrow) hzero
  obtain ⟨p, hp⟩ : ∃ p, ∀ r ∈ pm.updateInfo.head?, r.period ≠ p + 1 := by
    cases pm.updateInfo with
    | nil => exact ⟨0, by simp⟩
    | cons a as => exact ⟨a.period, by simp⟩
  have hcol : out'.allContributions.map (fun row => row.getD i 0) = out.allContributions.map (fun row => row.getD i 0) := by
    rw [(hr p hp).1, (hr' p (by rw [hupd]; exact hp)).1, hupd]
  have hP' : IsPeriod m' 1 := (isPeriod_iff hpm' 1).mpr (by omega)
  obtain ⟨l1, l2, l3, l4⟩ := loglike_shape hpm hg hc ho hclash hper hi hu hids hpers hn hval hin hout
  obtain ⟨l1', l2', l3', l4'⟩ := loglike_shape hpm' (he.goodNames hg) (he.cleanAnchoring hc) (he.sameOrder ho) (he.noNameClash hclash) hP' hi hu hids hpers hn' hval' hin' hout'
  refine ⟨fun k => by rw [entry2_column l2 hil, entry2_column l2' hil, hcol], ?_⟩
  obtain ⟨o, n, hopt, _⟩ := getDimensions_ok (processModel_ok_iff.mp hpm).1
  have e := l4 o hopt i hil
  have e' := l4' o (by rw [he.options]; exact hopt) i hil
  have h3 : ∀ xs : List (List ℝ), xs.map (fun row => clippedContribution o (row.getD i 0)) = (xs.map (fun row => row.getD i 0)).map (clippedContribution o) := fun xs => by rw [List.map_map]; rfl
  rw [h3] at e e'
  rw [hcol, ← e] at e'
  rw [List.getD_eq_getElem?_getD, List.getD_eq_getElem?_getD, List.getElem?_eq_getElem (by omega), List.getElem?_eq_getElem (by omega)] at e'
  rw [List.getElem?_eq_getElem (by omega), List.getElem?_eq_getElem (by omega)]
  exact congrArg some e'

/-! ### fewer controls -/

theorem edit_removeControls {cs : List String} {m m' : ModelDict ℝ} (h : removeControls cs m = .ok m') : EditOf m m' := by
  obtain ⟨c, hc, rfl⟩ := removeControls_ok h
  refine ⟨rfl, rfl, rfl, rfl, ?_, fun _ _ _ h => h, fun f spec fn ps hs he => ⟨spec, hs, he⟩⟩
  show ((if removeFromList c cs = [] then none else some (removeFromList c cs)).getD []).Sublist _
  rw [controls_getD_reduced, hc]
  exact List.filter_sublist

/-- A dataset for a model is accepted for the model with fewer controls. -/
theorem C117_data {m m' : ModelDict ℝ} {cs : List String} (h : removeControls cs m = .ok m') {df : LongData ℝ} {ids pers : List Int} (hd : DataOk m df ids pers) : DataOk m' df ids pers :=
  (edit_removeControls h).dataOk (smaller_removeControls h).periods hd

theorem updateInfo_removeControls {m m' : ModelDict ℝ} {cs : List String} (h : removeControls cs m = .ok m') {pm pm' : Processed ℝ} (hpm : processModel m = .ok pm) (hpm' : processModel m' = .ok pm') :
    pm'.dimensions.nPeriods = pm.dimensions.nPeriods ∧ pm'.updateInfo = pm.updateInfo := by
  obtain ⟨c, hc, rfl⟩ := removeControls_ok h
  obtain ⟨N, hN, hd, hu⟩ := processModel_updateInfo hpm
  obtain ⟨N', hN', hd', hu'⟩ := processModel_updateInfo hpm'
  obtain rfl := IsNPeriods.unique (show IsNPeriods m N' from hN') hN
  exact ⟨by rw [hd, hd'], by rw [hu, hu']; rfl⟩

/-- **C117**: removing controls (with remove_controls) is the same as setting their parameters to zero, for all individuals for whom the removed controls are not missing. (If a control is missing, then the
measurements of that period are ignored, even if the parameters of the control are zero.) -/
theorem C117_fewer_controls {qr : QR} {m m' : ModelDict ℝ} (hg : GoodNames m) (hc : CleanAnchoring m) (ho : SameOrder m) (hclash : NoNameClash m) (hper : IsPeriod m 1) {cs : List String} (hm' : removeControls cs m = .ok m')
    {df : LongData ℝ} (hi : IndexOk df) (hu : NoUnusedPeriods df) {ids pers : List Int} (hids : IdsOf df ids) (hpers : PeriodsOf df pers) {inputs inputs' : MaximizationInputs} (hin : getMaximizationInputs m df = .ok inputs)
    (hin' : getMaximizationInputs m' df = .ok inputs') {custom : String → CustomFn} {nan : ℝ} {val : Loc → ℝ} {params params' : List (Loc × ℝ)} (hn : (params.map Prod.fst).Nodup)
    (hval : ∀ l x, (l, x) ∈ params → x = val l) (hn' : (params'.map Prod.fst).Nodup) (hval' : ∀ l x, (l, x) ∈ params' → x = val l) (hzero : ∀ t v, IsUpdate m t v → ∀ c ∈ cs, val ⟨.controls, t, v, c⟩ = 0)
    {out out' : LoglikeOutput} (hout : inputs.loglike qr custom nan m params = .ok out) (hout' : inputs'.loglike qr custom nan m' params' = .ok out') {i : ℕ} (hil : i < ids.length)
    (hcomplete : ∀ t, IsPeriod m t → ∀ c ∈ cs, c ∈ m.controls.getD [] → ¬HasValue m df ids pers i t c none) :
    (∀ k, entry2 out'.allContributions k i = entry2 out.allContributions k i) ∧ out'.contributions[i]? = out.contributions[i]? := by
  obtain ⟨pm, hpm⟩ := accepted_of_inputs hin
  obtain ⟨pm', hpm'⟩ := accepted_of_inputs hin'
  have he := edit_removeControls hm'
  obtain ⟨hT', hupd⟩ := updateInfo_removeControls hm' hpm hpm'
  obtain ⟨c0, hc0, hm0⟩ := removeControls_ok hm'
  have hmem : ∀ c, c ∈ m'.controls.getD [] ↔ c ∈ m.controls.getD [] ∧ c ∉ cs := fun c => by
    rw [hm0, hc0]
    show c ∈ (if removeFromList c0 cs = [] then none else some (removeFromList c0 cs)).getD [] ↔ _
    rw [controls_getD_reduced, mem_removeFromList]
    rfl
  have hup : ∀ t v, IsUpdate m' t v ↔ IsUpdate m t v := fun t v => by rw [← (C01_update_info_exact hpm').2.1, ← (C01_update_info_exact hpm).2.1, hupd]
  refine edited_same qr he hpm hpm' hg hc ho hclash hper hT' hupd hi hu hids hpers hn hval hn' hval' hin hin' hout hout' hil
    (fun t _ _ s _ => he.sameTransition (by rw [hm0]) hpm hpm' custom val t s) (fun t ht r hrow => ?_) (fun t v c h1 h2 h3 => ?_)
  · unfold IncompleteControls
    simp only [he.valueIs, hup]
    refine and_congr_left (fun _ => ⟨?_, ?_⟩)
    · rintro ⟨c, h1, h2⟩
      exact ⟨c, (he.controls.cons_cons "constant").subset h1, h2⟩
    · rintro ⟨c, h1, h2⟩
      refine ⟨c, ?_, h2⟩
      rcases List.mem_cons.mp h1 with rfl | h1
      · exact List.mem_cons_self
      · refine List.mem_cons_of_mem _ ((hmem c).mpr ⟨h1, fun hcs => ?_⟩)
        exact hcomplete t ht c hcs h1 ⟨hil, r, hrow, h2⟩
  · refine hzero t v ((hup t v).mp h1) c ?_
    by_contra hcs
    exact h3 ((hmem c).mpr ⟨h2, hcs⟩)

end Skill
