import Verif.Props.Edits2
import Verif.Spec.Edits
/- C118: translog functions without squares and interactions are linear. -/
namespace Skill
open Spec

theorem mapM_forall₂ {A B C : Type} {f : A → Py C} {g : B → Py C} {as : List A} {bs : List B} (h : List.Forall₂ (fun a b => f a = g b) as bs) : as.mapM f = bs.mapM g := by
  induction h with
  | nil => rfl
  | cons h _ ih => rw [List.mapM_cons, List.mapM_cons, h, ih]

theorem transParams_item {m : ModelDict ℝ} {pm : Processed ℝ} (hpm : processModel m = .ok pm) (hk : DictKeys m) (custom : String → CustomFn) (val : Loc → ℝ) (t : ℕ) {fs : String × FactorSpec ℝ} (hfs : fs ∈ m.factors) :
    Dict.getItem (transParams pm val t) fs.1 = .ok ((paramNamesOf (allFactors m) (transFnOf (custom fs.1) fs.2.transition)).map (fun name => val ⟨.transition, t, fs.1, name⟩)) := by
  have htr := (labels_of_ok hpm).2.2.2.2.2.1
  obtain ⟨h1, _, h2, _⟩ := getTransitionInfo_spec htr
  have hl : (getLabels m pm.dimensions).allFactors = allFactors m := rfl
  rw [hl] at h2
  obtain ⟨pn, hpn, hpn1, fnn, hpn2⟩ := forall₂_mem h2 hfs
  refine Dict.getItem_of_mem ?_ ?_
  · unfold transParams
    rw [List.map_map]
    show (pm.transitionInfo.paramNames.map Prod.fst).Nodup
    rw [h1]
    exact hk.factors
  · refine List.mem_map.mpr ⟨pn, hpn, ?_⟩
    rw [hpn1, transitionNames_paramNames (custom fs.1) hpn2]

theorem exists_byNames {fs : List String} (hn : fs.Nodup) {s : List ℝ} (hs : s.length = fs.length) : ∃ x : String → ℝ, s = fs.map x := by
  refine ⟨fun f => s.getD (fs.idxOf f) 0, List.ext_getElem (by simpa using hs) (fun k h1 h2 => ?_)⟩
  rw [List.getElem_map, hn.idxOf_getElem, List.getD_eq_getElem?_getD, List.getElem?_eq_getElem h1]
  rfl

/-- A translog function without squares and interactions is linear. -/
theorem translog_linear {m : ModelDict ℝ} (hg : GoodNames m) {val : Loc → ℝ} {f : String} {t : ℕ} (h : NoHigherOrderTerms m val f t) (x : String → ℝ) :
    translog ((allFactors m).map x) ((paramsTranslog (allFactors m)).map (fun name => val ⟨.transition, t, f, name⟩)) =
      linear ((allFactors m).map x) ((paramsLinear (allFactors m)).map (fun name => val ⟨.transition, t, f, name⟩)) := by
  classical
  set fs := allFactors m with hfs
  have hmem : ∀ name, HasTransitionParam fs (.named "translog") name ↔ name ∈ paramsTranslog fs := fun name => by
    rw [mem_paramsTranslog]
    simp [HasTransitionParam]
  have hlin : ∀ name, HasTransitionParam fs (.named "linear") name ↔ name ∈ fs ∨ name = "constant" := fun name => by simp [HasTransitionParam]
  have hspace : ∀ a b : String, a ++ " ** 2" ∉ fs ∧ a ++ " ** 2" ≠ "constant" ∧ a ++ " * " ++ b ∉ fs ∧ a ++ " * " ++ b ≠ "constant" := fun a b => by
    have h1 : ' ' ∈ (a ++ " ** 2").toList := by rw [String.toList_append]; exact List.mem_append_right _ (by decide)
    have h2 : ' ' ∈ (a ++ " * " ++ b).toList := by rw [String.toList_append, String.toList_append]; exact List.mem_append_left _ (List.mem_append_right _ (by decide))
    refine ⟨fun h => (hg.chars _ h).2 h1, fun h => ?_, fun h => (hg.chars _ h).2 h2, fun h => ?_⟩
    · rw [h] at h1
      revert h1
      decide
    · rw [h] at h2
      revert h2
      decide
  set v : String → ℝ := fun name => if name ∈ paramsTranslog fs then val ⟨.transition, t, f, name⟩ else 0 with hv
  have e1 : (paramsTranslog fs).map (fun name => val ⟨.transition, t, f, name⟩) = (paramsTranslog fs).map v := List.map_congr_left (fun name hn => by rw [hv]; exact (if_pos hn).symm)
  have e2 : (paramsLinear fs).map (fun name => val ⟨.transition, t, f, name⟩) = (paramsLinear fs).map v := List.map_congr_left (fun name hn => by
    rw [hv]
    refine (if_pos ?_).symm
    rw [mem_paramsTranslog]
    rcases List.mem_append.mp hn with hn | hn
    · exact .inl hn
    · exact .inr (.inr (.inr (List.mem_singleton.mp hn))))
  have hz : ∀ name, ¬HasTransitionParam fs (.named "linear") name → v name = 0 := fun name hn => by
    rw [hv]
    dsimp only
    split
    · next hm => exact h name ((hmem name).mpr hm) hn
    · rfl
  rw [e1, e2]
  refine (C47_nested fs x v).1 (fun a _ => hz _ ?_) (fun a _ b _ => hz _ ?_)
  · rw [hlin]
    have := hspace a ""
    tauto
  · rw [hlin]
    have := hspace a b
    tauto

/-- The transition functions of two models which have linear functions instead of translog functions without squares and interactions. -/
theorem switched_transition {m m' : ModelDict ℝ} (he : EditOf m m') (hg : GoodNames m) {pm pm' : Processed ℝ} (hpm : processModel m = .ok pm) (hpm' : processModel m' = .ok pm') (custom : String → CustomFn) (val : Loc → ℝ) (t : ℕ)
    (h : List.Forall₂ (fun a b => b.1 = a.1 ∧ (b.2.transition = a.2.transition ∨ (a.2.transition = .named "translog" ∧ b.2.transition = .named "linear" ∧ NoHigherOrderTerms m val a.1 t))) m.factors m'.factors)
    (s : List ℝ) (hs : s.length = nLat m + nObsd m) :
    transitionFunction (allFactors m) (transitionFns custom m) (transParams pm val t) s = transitionFunction (allFactors m') (transitionFns custom m') (transParams pm' val t) s := by
  obtain ⟨x, rfl⟩ := exists_byNames hg.distinct (s := s) (by rw [hs]; unfold allFactors; simp)
  have hg' := he.goodNames hg
  rw [he.allFactors_eq]
  unfold transitionFunction transitionFns
  rw [List.mapM_map, List.mapM_map]
  refine mapM_forall₂ ?_
  rw [List.forall₂_iff_get] at h ⊢
  refine ⟨h.1, fun k h1 h2 => ?_⟩
  obtain ⟨hname, hcase⟩ := h.2 k h1 h2
  have i1 := transParams_item hpm hg.keys custom val t (List.get_mem m.factors ⟨k, h1⟩)
  have i2 := transParams_item hpm' hg'.keys custom val t (List.get_mem m'.factors ⟨k, h2⟩)
  generalize m.factors.get ⟨k, h1⟩ = a at *
  generalize m'.factors.get ⟨k, h2⟩ = b at *
  dsimp only [Function.comp]
  rw [he.allFactors_eq] at i2
  rw [hname] at i2 ⊢
  unfold nextFactor
  rw [i1, i2]
  rcases hcase with hsame | ⟨h3, h4, h5⟩
  · rw [hsame]
  · rw [h3, h4]
    show translog _ _ = linear _ _
    exact translog_linear hg h5 x

theorem edit_switch (old new : String) (m : ModelDict ℝ) : EditOf m (switchTransition old new m) where
  factors := by
    show (m.factors.map _).map _ = _
    rw [List.map_map]
    rfl
  observed := rfl
  anchoring := rfl
  options := rfl
  controls := List.Sublist.refl _
  measures := by
    rintro t v f ⟨spec, hs, l, h1, h2⟩
    obtain ⟨s, hs', rfl⟩ := mem_switchTransition.mp hs
    exact ⟨s, hs', l, h1, h2⟩
  registered := fun f spec fn ps hs he => by
    obtain ⟨s, hs', rfl⟩ := mem_switchTransition.mp hs
    refine ⟨s, hs', ?_⟩
    dsimp only at he
    split at he
    · cases he
    · exact he

theorem edit_unswitch (old new : String) (m : ModelDict ℝ) : EditOf (switchTransition old new m) m where
  factors := (edit_switch old new m).factors.symm
  observed := rfl
  anchoring := rfl
  options := rfl
  controls := List.Sublist.refl _
  measures := by
    rintro t v f ⟨spec, hs, l, h1, h2⟩
    exact ⟨_, mem_switchTransition.mpr ⟨spec, hs, rfl⟩, l, h1, h2⟩
  registered := fun f spec fn ps hs he => ⟨_, mem_switchTransition.mpr ⟨spec, hs, rfl⟩, by rw [he]; simp⟩

theorem updateInfo_switch {m : ModelDict ℝ} {old new : String} {pm pm' : Processed ℝ} (hpm : processModel m = .ok pm) (hpm' : processModel (switchTransition old new m) = .ok pm') :
    pm'.dimensions.nPeriods = pm.dimensions.nPeriods ∧ pm'.updateInfo = pm.updateInfo := by
  obtain ⟨N, hN, hd, hu⟩ := processModel_updateInfo hpm
  obtain ⟨N', hN', hd', hu'⟩ := processModel_updateInfo hpm'
  have hNN : N' = N := IsNPeriods.unique hN' ((isNPeriods_congr (by
    show (m.factors.map _).map _ = _
    rw [List.map_map]
    rfl) : IsNPeriods (switchTransition old new m) N ↔ IsNPeriods m N).mpr hN)
  subst hNN
  refine ⟨by rw [hd, hd'], ?_⟩
  rw [hu, hu']
  show buildRows (updateAssignments _ ((m.factors.map _).map _) _) = _
  rw [List.map_map]
  rfl

theorem incomplete_switch {m : ModelDict ℝ} {old new : String} {pm pm' : Processed ℝ} (hpm : processModel m = .ok pm) (hpm' : processModel (switchTransition old new m) = .ok pm') (r : Option (LongRow ℝ)) (t : ℕ) :
    IncompleteControls (switchTransition old new m) r t ↔ IncompleteControls m r t := by
  have hup : ∀ t v, IsUpdate (switchTransition old new m) t v ↔ IsUpdate m t v := fun t v => by rw [← (C01_update_info_exact hpm').2.1, ← (C01_update_info_exact hpm).2.1, (updateInfo_switch hpm hpm').2]
  unfold IncompleteControls
  simp only [(edit_switch old new m).valueIs, hup]
  rfl

/-- **C118** (switch_translog_to_linear): if the parameters of squares and interactions are zero in all translog functions, then the likelihood of the model with linear functions is the same for all individuals. -/
theorem C118_translog_to_linear {qr : QR} {m : ModelDict ℝ} (hg : GoodNames m) (hc : CleanAnchoring m) (ho : SameOrder m) (hclash : NoNameClash m) (hper : IsPeriod m 1)
    {df : LongData ℝ} (hi : IndexOk df) (hu : NoUnusedPeriods df) {ids pers : List Int} (hids : IdsOf df ids) (hpers : PeriodsOf df pers) {inputs inputs' : MaximizationInputs} (hin : getMaximizationInputs m df = .ok inputs)
    (hin' : getMaximizationInputs (switchTranslogToLinear m) df = .ok inputs') {custom : String → CustomFn} {nan : ℝ} {val : Loc → ℝ} {params params' : List (Loc × ℝ)} (hn : (params.map Prod.fst).Nodup)
    (hval : ∀ l x, (l, x) ∈ params → x = val l) (hn' : (params'.map Prod.fst).Nodup) (hval' : ∀ l x, (l, x) ∈ params' → x = val l)
    (hzero : ∀ f spec, (f, spec) ∈ m.factors → spec.transition = .named "translog" → ∀ t, IsPeriod m (t + 1) → NoHigherOrderTerms m val f t)
    {out out' : LoglikeOutput} (hout : inputs.loglike qr custom nan m params = .ok out) (hout' : inputs'.loglike qr custom nan (switchTranslogToLinear m) params' = .ok out') :
    ∀ i < ids.length, (∀ k, entry2 out'.allContributions k i = entry2 out.allContributions k i) ∧ out'.contributions[i]? = out.contributions[i]? := by
  intro i hil
  obtain ⟨pm, hpm⟩ := accepted_of_inputs hin
  obtain ⟨pm', hpm'⟩ := accepted_of_inputs hin'
  have he := edit_switch "translog" "linear" m
  obtain ⟨hT', hupd⟩ := updateInfo_switch hpm hpm'
  refine edited_same qr he hpm hpm' hg hc ho hclash hper hT' hupd hi hu hids hpers hn hval hn' hval' hin hin' hout hout' hil
    (fun t _ ht s hs => switched_transition he hg hpm hpm' custom val t ?_ s hs) (fun t _ r _ => incomplete_switch hpm hpm' r t) (fun t v c _ h1 h2 => absurd h1 h2)
  show List.Forall₂ _ m.factors (m.factors.map _)
  rw [List.forall₂_map_right_iff, List.forall₂_same]
  intro fs hfs
  refine ⟨rfl, ?_⟩
  by_cases htr : fs.2.transition = .named "translog"
  · exact .inr ⟨htr, if_pos htr, hzero fs.1 fs.2 hfs htr t ht⟩
  · exact .inl (if_neg htr)

/-- **C118** (switch_linear_to_translog): if the parameters of squares and interactions in the new translog functions are set to zero, then the likelihood of the model is the same for all individuals. -/
theorem C118_linear_to_translog {qr : QR} {m : ModelDict ℝ} (hg : GoodNames m) (hc : CleanAnchoring m) (ho : SameOrder m) (hclash : NoNameClash m) (hper : IsPeriod m 1)
    {df : LongData ℝ} (hi : IndexOk df) (hu : NoUnusedPeriods df) {ids pers : List Int} (hids : IdsOf df ids) (hpers : PeriodsOf df pers) {inputs inputs' : MaximizationInputs} (hin : getMaximizationInputs m df = .ok inputs)
    (hin' : getMaximizationInputs (switchLinearToTranslog m) df = .ok inputs') {custom : String → CustomFn} {nan : ℝ} {val : Loc → ℝ} {params params' : List (Loc × ℝ)} (hn : (params.map Prod.fst).Nodup)
    (hval : ∀ l x, (l, x) ∈ params → x = val l) (hn' : (params'.map Prod.fst).Nodup) (hval' : ∀ l x, (l, x) ∈ params' → x = val l)
    (hzero : ∀ f spec, (f, spec) ∈ m.factors → spec.transition = .named "linear" → ∀ t, IsPeriod m (t + 1) → NoHigherOrderTerms m val f t)
    {out out' : LoglikeOutput} (hout : inputs.loglike qr custom nan m params = .ok out) (hout' : inputs'.loglike qr custom nan (switchLinearToTranslog m) params' = .ok out') :
    ∀ i < ids.length, (∀ k, entry2 out'.allContributions k i = entry2 out.allContributions k i) ∧ out'.contributions[i]? = out.contributions[i]? := by
  intro i hil
  obtain ⟨pm, hpm⟩ := accepted_of_inputs hin
  obtain ⟨pm', hpm'⟩ := accepted_of_inputs hin'
  have he := edit_unswitch "linear" "translog" m
  have hs := edit_switch "linear" "translog" m
  obtain ⟨hT', hupd⟩ := updateInfo_switch hpm hpm'
  have hP : ∀ t, IsPeriod (switchLinearToTranslog m) t ↔ IsPeriod m t := fun t => by rw [isPeriod_iff hpm', isPeriod_iff hpm, hT']
  have := edited_same qr he hpm' hpm (hs.goodNames hg) (hs.cleanAnchoring hc) (hs.sameOrder ho) (hs.noNameClash hclash) ((hP 1).mpr hper) hT'.symm hupd.symm hi hu hids hpers hn' hval' hn hval hin' hin hout' hout hil
    (fun t _ ht s hs' => switched_transition he (hs.goodNames hg) hpm' hpm custom val t ?_ s hs') (fun t _ r _ => (incomplete_switch hpm hpm' r t).symm) (fun t v c _ h1 h2 => absurd h1 h2)
  · exact ⟨fun k => (this.1 k).symm, this.2.symm⟩
  · show List.Forall₂ _ (m.factors.map _) m.factors
    rw [List.forall₂_map_left_iff, List.forall₂_same]
    intro fs hfs
    refine ⟨rfl, ?_⟩
    by_cases htr : fs.2.transition = .named "linear"
    · refine .inr ⟨if_pos htr, htr, ?_⟩
      have := hzero fs.1 fs.2 hfs htr t ((hP (t + 1)).mp ht)
      unfold NoHigherOrderTerms at this ⊢
      rw [he.allFactors_eq] at this
      exact this
    · exact .inl (if_neg htr).symm

end Skill
