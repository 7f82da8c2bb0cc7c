import Verif.Lemmas.Edits
import Verif.Lemmas.UnitsData
import Verif.Props.OwnData
/-
Comparison of the contributions of an individual to the likelihood of two models.
-/
namespace Skill
open Matrix Spec

theorem nameRun_congr (qr : QR) (custom : String → CustomFn) {m m' : ModelDict ℝ} {pm pm' : Processed ℝ} (val : Loc → ℝ) {nT nT' n nO nC nC' nMix : ℕ} {K K' F F' : ℕ → String → ℝ} {D D' : URow → Option ℝ}
    (hlat : m'.factors.map Prod.fst = m.factors.map Prod.fst) (hobs : m'.observedFactors.getD [] = m.observedFactors.getD []) (hanch : m'.anchoring = m.anchoring)
    (hopt : pm'.estimationOptions.sigmaPointsScale = pm.estimationOptions.sigmaPointsScale) (hle : nT' ≤ nT) (hnO : nO = nObsd m)
    (htrans : ∀ t, t + 1 < nT' + 2 → ∀ s : List ℝ, s.length = n + nO → transitionFunction (allFactors m) (transitionFns custom m) (transParams pm val t) s = transitionFunction (allFactors m') (transitionFns custom m') (transParams pm' val t) s)
    (hF : ∀ t < nT' + 2, ∀ f ∈ m.observedFactors.getD [], F t f = F' t f) {u : List URow} (hu : ∀ r ∈ u, r.period < nT' + 2 ∧ D r = D' r ∧
      ((D r).isSome = true → ∑ j : Fin nC, K r.period (conName m j) * val ⟨.controls, r.period, r.var, conName m j⟩ = ∑ j : Fin nC', K' r.period (conName m' j) * val ⟨.controls, r.period, r.var, conName m' j⟩)) (p : ℕ) :
    nameRun qr custom m pm val nT n nO nC nMix K F D p u = nameRun qr custom m' pm' val nT' n nO nC' nMix K' F' D' p u := by
  have hln : ∀ j, latName m' j = latName m j := fun j => by rw [latName, latName, hlat]
  have hall : allFactors m' = allFactors m := by rw [allFactors, allFactors, hlat, hobs]
  have han : ∀ j, allName m' j = allName m j := fun j => by rw [allName, allName, hall]
  have hon : ∀ j, obsName m' j = obsName m j := fun j => by rw [obsName, obsName, hobs]
  have hout : ∀ f, outcomeOf m' f = outcomeOf m f := fun f => by unfold outcomeOf outcomesOf; rw [hanch]
  have hsc : ∀ t f, scalingOf m' val t f = scalingOf m val t f := fun t f => by unfold scalingOf; rw [hout]
  have hco : ∀ t f, constantOf m' val t f = constantOf m val t f := fun t f => by unfold constantOf AnchorFlag; rw [hout, hanch]
  unfold nameRun
  have hcarry : nameCarry m' val nMix n = nameCarry m val nMix n := by unfold nameCarry; simp only [hln]
  rw [hcarry]
  congr 1
  refine lazyRun_congr (N := nT' + 2) (fun p c hp => ?_) ?_ _ _
  · have e1 : jaxIndex (nT + 1) (periodIndex (nT + 1) p) = ⟨p, by omega⟩ := jaxIndex_period _
    have e1' : jaxIndex (nT' + 1) (periodIndex (nT' + 1) p) = ⟨p, by omega⟩ := jaxIndex_period _
    have hpi : periodIndex (nT + 1) p = p := if_neg (by omega)
    have hpi' : periodIndex (nT' + 1) p = p := if_neg (by omega)
    have e2 : (jaxIndex nT (periodIndex (nT + 1) p)).val = p := by rw [hpi]; exact jaxIndex_val (by omega)
    have e2' : (jaxIndex nT' (periodIndex (nT' + 1) p)).val = p := by rw [hpi']; exact jaxIndex_val (by omega)
    have e3 : (jaxIndex (nT + 1) (periodIndex (nT + 1) p + 1)).val = p + 1 := by rw [hpi]; exact jaxIndex_val (t := p + 1) (by omega)
    have e3' : (jaxIndex (nT' + 1) (periodIndex (nT' + 1) p + 1)).val = p + 1 := by rw [hpi']; exact jaxIndex_val (t := p + 1) (by omega)
    unfold namePred
    refine predictCarry_same qr c ?_ ?_ ?_ ?_ ?_ ?_ ?_ ?_ ?_
    · funext s
      show transitionValues n (allFactors m) (transitionFns custom m) (transParams pm val (jaxIndex nT (periodIndex (nT + 1) p)).val) s =
        transitionValues n (allFactors m') (transitionFns custom m') (transParams pm' val (jaxIndex nT' (periodIndex (nT' + 1) p)).val) s
      rw [e2, e2']
      unfold transitionValues
      rw [htrans p hp (List.ofFn s) List.length_ofFn]
    · funext f
      show val ⟨.shockSds, (jaxIndex nT (periodIndex (nT + 1) p)).val, latName m f, "-"⟩ = val ⟨.shockSds, (jaxIndex nT' (periodIndex (nT' + 1) p)).val, latName m' f, "-"⟩
      rw [e2, e2', hln]
    · rw [e1, e1']
      funext i j
      show F p (obsName m j) = F' p (obsName m' j)
      subst hnO
      rw [hon]
      exact hF p (by omega) _ (List.mem_of_getElem? (obsName_get j))
    · rw [e1, e1']
      funext f
      show scalingOf m val p (allName m f) = scalingOf m' val p (allName m' f)
      rw [hsc, han]
    · funext f
      show scalingOf m val (jaxIndex (nT + 1) (periodIndex (nT + 1) p + 1)).val (allName m f) = scalingOf m' val (jaxIndex (nT' + 1) (periodIndex (nT' + 1) p + 1)).val (allName m' f)
      rw [e3, e3', hsc, han]
    · rw [e1, e1']
      funext f
      show constantOf m val p (allName m f) = constantOf m' val p (allName m' f)
      rw [hco, han]
    · funext f
      show constantOf m val (jaxIndex (nT + 1) (periodIndex (nT + 1) p + 1)).val (allName m f) = constantOf m' val (jaxIndex (nT' + 1) (periodIndex (nT' + 1) p + 1)).val (allName m' f)
      rw [e3, e3', hco, han]
    · show sigmaScalingFactor n pm.estimationOptions.sigmaPointsScale = sigmaScalingFactor n pm'.estimationOptions.sigmaPointsScale
      rw [hopt]
    · show sigmaWeights n pm.estimationOptions.sigmaPointsScale = sigmaWeights n pm'.estimationOptions.sigmaPointsScale
      rw [hopt]
  · rw [List.forall₂_same]
    intro r hr
    obtain ⟨hr1, hr2, hr3⟩ := hu r hr
    refine ⟨rfl, hr1, fun c => ?_⟩
    have hupd : scanUpdate qr (nameFixed custom m pm val nT n nO nC K F) c (argOf (nT + 1) (nameRow m val n nC r) (fun _ => D r) false) =
        scanUpdate qr (nameFixed custom m' pm' val nT' n nO nC' K' F') c (argOf (nT' + 1) (nameRow m' val n nC' r) (fun _ => D' r) false) := by
      refine scanUpdate_same qr _ _ c ?_ rfl (by show (fun _ => D r) = fun _ => D' r; rw [hr2]) rfl (fun i h => ?_)
      · funext f
        show (if latName m f ∈ r.trueCols then val ⟨.loadings, r.period, r.var, latName m f⟩ else 0) = if latName m' f ∈ r.trueCols then val ⟨.loadings, r.period, r.var, latName m' f⟩ else 0
        rw [hln]
      · have e1 : jaxIndex (nT + 1) (periodIndex (nT + 1) r.period) = ⟨r.period, by omega⟩ := jaxIndex_period _
        have e1' : jaxIndex (nT' + 1) (periodIndex (nT' + 1) r.period) = ⟨r.period, by omega⟩ := jaxIndex_period _
        show ∑ j : Fin nC, K (jaxIndex (nT + 1) (periodIndex (nT + 1) r.period)).val (conName m j) * val ⟨.controls, r.period, r.var, conName m j⟩ =
          ∑ j : Fin nC', K' (jaxIndex (nT' + 1) (periodIndex (nT' + 1) r.period)).val (conName m' j) * val ⟨.controls, r.period, r.var, conName m' j⟩
        rw [e1, e1']
        exact hr3 h
    unfold nameUpd updOf stepOut
    dsimp only
    rw [hupd]

/-- A model with the same factors as another one. It may have fewer periods, measurements and controls, and other transition functions. -/
structure EditOf (m m' : ModelDict ℝ) : Prop where
  factors : m'.factors.map Prod.fst = m.factors.map Prod.fst
  observed : m'.observedFactors = m.observedFactors
  anchoring : m'.anchoring = m.anchoring
  options : m'.estimationOptions = m.estimationOptions
  controls : (m'.controls.getD []).Sublist (m.controls.getD [])
  measures : ∀ t v f, Measures m' t v f → Measures m t v f
  registered : ∀ f spec fn ps, (f, spec) ∈ m'.factors → spec.transition = .custom fn ps → ∃ spec', (f, spec') ∈ m.factors ∧ spec'.transition = .custom fn ps

namespace EditOf
variable {m m' : ModelDict ℝ}

theorem anchoredIn (h : EditOf m m') (f o : String) : AnchoredIn m' f o ↔ AnchoredIn m f o := by unfold AnchoredIn; rw [h.anchoring]

theorem anchors (h : EditOf m m') (v f : String) : Anchors m' v f ↔ Anchors m v f := by unfold Anchors; simp only [h.anchoredIn]

theorem isLatent (h : EditOf m m') (f : String) : IsLatent m' f ↔ IsLatent m f := by
  have : ∀ m : ModelDict ℝ, IsLatent m f ↔ f ∈ m.factors.map Prod.fst := fun m => by
    unfold IsLatent
    simp
  rw [this, this, h.factors]

theorem allFactors_eq (h : EditOf m m') : allFactors m' = allFactors m := by rw [allFactors, allFactors, h.factors, h.observed]

theorem goodNames (h : EditOf m m') (hg : GoodNames m) : GoodNames m' where
  keys := ⟨by rw [h.factors]; exact hg.keys.factors, by rw [h.anchoring]; exact hg.keys.outcomes⟩
  distinct := by rw [h.allFactors_eq]; exact hg.distinct
  controls := hg.controls.sublist (h.controls.cons_cons _)
  chars := by rw [h.allFactors_eq]; exact hg.chars
  reserved := by rw [h.allFactors_eq]; exact hg.reserved
  registered := fun f spec fn ps hs he => by
    obtain ⟨spec', h1, h2⟩ := h.registered f spec fn _ hs he
    exact hg.registered f spec' fn ps h1 h2

theorem cleanAnchoring (h : EditOf m m') (hc : CleanAnchoring m) : CleanAnchoring m' where
  latent := fun f o ha => (h.isLatent f).mpr (hc.latent f o ((h.anchoredIn f o).mp ha))
  notMeasured := fun v f t g ha hm => hc.notMeasured v f t g ((h.anchors v f).mp ha) (h.measures t v g hm)
  distinct := fun v f g h1 h2 => hc.distinct v f g ((h.anchors v f).mp h1) ((h.anchors v g).mp h2)

theorem sameOrder (h : EditOf m m') (ho : SameOrder m) : SameOrder m' := by unfold SameOrder; rw [h.anchoring, h.factors]; exact ho

theorem noNameClash (h : EditOf m m') (hc : NoNameClash m) : NoNameClash m' := by unfold NoNameClash; simp only [h.anchoredIn]; exact hc

theorem valueIs (h : EditOf m m') (r : Option (LongRow ℝ)) (c : String) (v : Option ℝ) : ValueIs m' r c v ↔ ValueIs m r c v := by unfold ValueIs; simp only [h.anchoredIn, h.anchors]

theorem hasValue (h : EditOf m m') (df : LongData ℝ) (ids pers : List Int) (i t : ℕ) (c : String) (v : Option ℝ) : HasValue m' df ids pers i t c v ↔ HasValue m df ids pers i t c v := by
  unfold HasValue
  simp only [h.valueIs]

theorem hasVariable (h : EditOf m m') (df : LongData ℝ) (c : String) : HasVariable m' df c ↔ HasVariable m df c := by unfold HasVariable; simp only [h.anchors]

/-- A dataset for the original model is accepted for the edited one. -/
theorem dataOk (h : EditOf m m') (hper : ∀ t, IsPeriod m' t → IsPeriod m t) {df : LongData ℝ} {ids pers : List Int} (hd : DataOk m df ids pers) : DataOk m' df ids pers where
  keys := hd.keys
  outcomes := fun f o ha => hd.outcomes f o ((h.anchoredIn f o).mp ha)
  controls := fun t ht c hc => by
    simp only [h.hasVariable, h.hasValue]
    exact hd.controls t (hper t ht) c ((h.controls.cons_cons "constant").subset hc)
  measurements := fun t v hv => by
    simp only [h.hasVariable, h.hasValue]
    refine hd.measurements t v ?_
    rcases hv with ⟨f, hf⟩ | ⟨h1, f, hf⟩
    · exact .inl ⟨f, h.measures t v f hf⟩
    · exact .inr ⟨hper t h1, f, (h.anchors v f).mp hf⟩
  observed := fun t ht f hf => by
    simp only [h.hasVariable, h.hasValue]
    rw [h.observed] at hf
    exact hd.observed t (hper t ht) f hf

theorem entry (h : EditOf m m') (hclash : NoNameClash m) {df : LongData ℝ} (hk : UniqueKeys df) {ids pers : List Int} {i t : ℕ} (hinc : ∀ r, RowOf df ids pers i t r → (IncompleteControls m' r t ↔ IncompleteControls m r t))
    {c : String} {w w' : Option ℝ} (he : Entry m df ids pers i t c w) (he' : Entry m' df ids pers i t c w') : w' = w := by
  obtain ⟨r, v, h1, h2, h3⟩ := he
  obtain ⟨r', v', h1', h2', h3'⟩ := he'
  obtain rfl := rowOf_unique hk h1 h1'
  obtain rfl := valueIs_determined hclash h2 ((h.valueIs _ _ _).mp h2')
  refine kept_unique (m := m) ?_ h3
  unfold Kept at h3' ⊢
  rwa [hinc _ h1] at h3'

theorem transitionInfo (h : EditOf m m') (ht : m'.factors.map (fun fs => (fs.1, fs.2.transition)) = m.factors.map (fun fs => (fs.1, fs.2.transition))) {pm pm' : Processed ℝ} (hpm : processModel m = .ok pm)
    (hpm' : processModel m' = .ok pm') : pm'.transitionInfo = pm.transitionInfo := by
  have h1 := (labels_of_ok hpm).2.2.2.2.2.1
  have h2 := (labels_of_ok hpm').2.2.2.2.2.1
  have hgen : ∀ (m : ModelDict ℝ) (d : Dimensions), getTransitionInfo m (getLabels m d) = (do
      let infos ← (m.factors.map (fun fs => (fs.1, fs.2.transition))).mapM (fun (f, s) => do
        let r ← transitionNamesOf (allFactors m) s
        pure (f, r))
      pure { paramNames := infos.map (fun x => (x.1, x.2.1)), functionNames := infos.map (fun x => (x.1, x.2.2)) } : Py TransInfo) := by
    intro m d
    rw [List.mapM_map]
    rfl
  rw [hgen] at h1 h2
  rw [ht, h.allFactors_eq, h1] at h2
  exact (Except.ok.inj h2).symm

end EditOf

theorem exists_commonVal {params params' : List (Loc × ℝ)} (hn : (params.map Prod.fst).Nodup) (hn' : (params'.map Prod.fst).Nodup) (h : ∀ l x x', (l, x) ∈ params → (l, x') ∈ params' → x = x') :
    ∃ val : Loc → ℝ, (∀ l x, (l, x) ∈ params → x = val l) ∧ ∀ l x, (l, x) ∈ params' → x = val l := by
  classical
  have huniq : ∀ {ps : List (Loc × ℝ)}, (ps.map Prod.fst).Nodup → ∀ {l x y}, (l, x) ∈ ps → (l, y) ∈ ps → x = y := fun {ps} hn {l x y} h1 h2 => (Prod.ext_iff.mp (List.inj_on_of_nodup_map hn h1 h2 rfl)).2
  refine ⟨fun l => if h1 : ∃ x, (l, x) ∈ params then h1.choose else if h2 : ∃ x, (l, x) ∈ params' then h2.choose else 0, fun l x hx => ?_, fun l x hx => ?_⟩
  · have h1 : ∃ x, (l, x) ∈ params := ⟨x, hx⟩
    dsimp only
    rw [dif_pos h1]
    exact huniq hn hx h1.choose_spec
  · by_cases h1 : ∃ x, (l, x) ∈ params
    · dsimp only
      rw [dif_pos h1]
      exact (h l _ x h1.choose_spec hx).symm
    · have h2 : ∃ x, (l, x) ∈ params' := ⟨x, hx⟩
      dsimp only
      rw [dif_neg h1, dif_pos h2]
      exact huniq hn' hx h2.choose_spec

theorem sum_sublist {l l' : List String} (h : l'.Sublist l) (hn : l.Nodup) {f : String → ℝ} (hf : ∀ c ∈ l, c ∉ l' → f c = 0) : (l.map f).sum = (l'.map f).sum := by
  induction h with
  | slnil => rfl
  | @cons l1 l2 a h ih =>
    rw [List.nodup_cons] at hn
    rw [List.map_cons, List.sum_cons, hf a List.mem_cons_self (fun ha => hn.1 (h.subset ha)), zero_add]
    exact ih hn.2 (fun c hc => hf c (List.mem_cons_of_mem _ hc))
  | @cons_cons l1 l2 a h ih =>
    rw [List.nodup_cons] at hn
    rw [List.map_cons, List.sum_cons, List.map_cons, List.sum_cons]
    refine congrArg (f a + ·) (ih hn.2 (fun c hc hc' => hf c (List.mem_cons_of_mem _ hc) (fun hc2 => ?_)))
    rcases List.mem_cons.mp hc2 with rfl | hc2
    · exact hn.1 hc
    · exact hc' hc2

theorem sum_conName (m : ModelDict ℝ) (f : String → ℝ) : ∑ j : Fin (nCon m), f (conName m j) = (("constant" :: m.controls.getD []).map f).sum := by
  rw [← List.sum_ofFn]
  congr 1
  refine List.ext_getElem? (fun k => ?_)
  rw [List.getElem?_map]
  by_cases hk : k < nCon m
  · rw [List.getElem?_ofFn, dif_pos hk, conName_get ⟨k, hk⟩]
    rfl
  · rw [List.getElem?_ofFn, dif_neg hk, List.getElem?_eq_none (by rw [List.length_cons]; unfold nCon at hk; omega)]
    rfl

/-- The contributions of an individual to the likelihood of an edited model are computed like those to the likelihood of the original model, from the updates of the edited model. -/
theorem edited_run (qr : QR) {m m' : ModelDict ℝ} (he : EditOf m m') {pm pm' : Processed ℝ} (hpm : processModel m = .ok pm) (hpm' : processModel m' = .ok pm') (hg : GoodNames m) (hc : CleanAnchoring m) (ho : SameOrder m)
    (hclash : NoNameClash m) {nT nT' : ℕ} (hT : pm.dimensions.nPeriods = nT + 2) (hT' : pm'.dimensions.nPeriods = nT' + 2) (hle : nT' ≤ nT) (hsub : ∀ r ∈ pm'.updateInfo, r ∈ pm.updateInfo)
    (custom : String → CustomFn) (nan : ℝ) {val : Loc → ℝ} {df : LongData ℝ} {ids pers : List Int} {inputs inputs' : MaximizationInputs} {params params' : List (Loc × ℝ)} {out out' : LoglikeOutput}
    (hi : IndexOk df) (hu : NoUnusedPeriods df) (hids : IdsOf df ids) (hpers : PeriodsOf df pers) (hn : (params.map Prod.fst).Nodup) (hval : ∀ l x, (l, x) ∈ params → x = val l) (hn' : (params'.map Prod.fst).Nodup)
    (hval' : ∀ l x, (l, x) ∈ params' → x = val l) (hin : getMaximizationInputs m df = .ok inputs) (hin' : getMaximizationInputs m' df = .ok inputs') (hout : inputs.loglike qr custom nan m params = .ok out)
    (hout' : inputs'.loglike qr custom nan m' params' = .ok out') {i : ℕ} (hil : i < ids.length)
    (htrans : ∀ t, t + 1 < nT' + 2 → ∀ s : List ℝ, s.length = nLat m + nObsd m →
      transitionFunction (allFactors m) (transitionFns custom m) (transParams pm val t) s = transitionFunction (allFactors m') (transitionFns custom m') (transParams pm' val t) s)
    (hinc : ∀ t < nT' + 2, ∀ r, RowOf df ids pers i t r → (IncompleteControls m' r t ↔ IncompleteControls m r t))
    (hzero : ∀ t v c, IsUpdate m' t v → c ∈ m.controls.getD [] → c ∉ m'.controls.getD [] → val ⟨.controls, t, v, c⟩ = 0) :
    ∃ (K F : ℕ → String → ℝ) (D : URow → Option ℝ), (∀ r ∈ pm.updateInfo, Entry m df ids pers i r.period r.var (D r)) ∧
      (∀ p, (∀ r ∈ pm.updateInfo.head?, r.period ≠ p + 1) →
        out.allContributions.map (fun row => row.getD i 0) = nameRun qr custom m pm val nT (nLat m) (nObsd m) (nCon m) pm.dimensions.nMixtures K F D p pm.updateInfo ∧ (∀ row ∈ out.allContributions, row.length = ids.length)) ∧
      ∀ p, (∀ r ∈ pm'.updateInfo.head?, r.period ≠ p + 1) →
        out'.allContributions.map (fun row => row.getD i 0) = nameRun qr custom m pm val nT (nLat m) (nObsd m) (nCon m) pm.dimensions.nMixtures K F D p pm'.updateInfo ∧ (∀ row ∈ out'.allContributions, row.length = ids.length) := by
  have hP : IsPeriod m 1 := (isPeriod_iff hpm 1).mpr (by omega)
  have hP' : IsPeriod m' 1 := (isPeriod_iff hpm' 1).mpr (by omega)
  have hg' := he.goodNames hg
  obtain ⟨K, F, D, hK, hF, hD, hrun⟩ := name_run qr hpm hg hc ho hclash hP hT custom nan hi hu hids hpers hn hval hin hout hil
  obtain ⟨K', F', D', hK', hF', hD', hrun'⟩ := name_run qr hpm' hg' (he.cleanAnchoring hc) (he.sameOrder ho) (he.noNameClash hclash) hP' hT' custom nan hi hu hids hpers hn' hval' hin' hout' hil
  have hk := (accepted_dataOk hg.keys hclash hi hu hids hpers hin).keys
  refine ⟨K, F, D, hD, hrun, fun p hp => ?_⟩
  obtain ⟨e1, e2⟩ := hrun' p hp
  refine ⟨?_, e2⟩
  rw [e1]
  have hlat : nLat m' = nLat m := by have := congrArg List.length he.factors; rwa [List.length_map, List.length_map] at this
  have hobs : nObsd m' = nObsd m := by unfold nObsd; rw [he.observed]
  have hmix : pm'.dimensions.nMixtures = pm.dimensions.nMixtures := by
    obtain ⟨o, n, h1, _, h3⟩ := getDimensions_ok (processModel_ok_iff.mp hpm).1
    obtain ⟨o', n', h1', _, h3'⟩ := getDimensions_ok (processModel_ok_iff.mp hpm').1
    rw [he.options, h1] at h1'
    obtain rfl := Option.some.inj h1'
    rw [h3, h3']
  rw [hlat, hobs, hmix]
  symm
  have hrange := updates_in_range hpm' hT'
  refine nameRun_congr qr custom val he.factors (by rw [he.observed]) he.anchoring ?_ hle rfl htrans (fun t ht f hf => ?_) (fun r hr => ⟨?_, ?_, fun _ => ?_⟩) p
  · have h1 := (processModel_ok_iff.mp hpm).2.2.2.2.2.1
    have h2 := (processModel_ok_iff.mp hpm').2.2.2.2.2.1
    rw [h1, h2]
    unfold processEstimationOptions
    rw [he.options]
  · obtain ⟨w, h1, h2⟩ := hF t (by omega) f hf
    obtain ⟨w', h1', h2'⟩ := hF' t ht f (by rw [he.observed]; exact hf)
    rw [h2, h2', he.entry hclash hk (hinc t ht) h1 h1']
  · exact hrange r hr
  · exact (he.entry hclash hk (hinc r.period (hrange r hr)) (hD r (hsub r hr)) (hD' r hr)).symm
  · rw [sum_conName m (fun c => K r.period c * val ⟨.controls, r.period, r.var, c⟩), sum_conName m' (fun c => K' r.period c * val ⟨.controls, r.period, r.var, c⟩)]
    rw [sum_sublist (he.controls.cons_cons "constant") hg.controls (fun c hc' hc2 => ?_)]
    · congr 1
      refine List.map_congr_left (fun c hc' => ?_)
      obtain ⟨w, h1, h2⟩ := hK r.period (by have := hrange r hr; omega) c ((he.controls.cons_cons "constant").subset hc')
      obtain ⟨w', h1', h2'⟩ := hK' r.period (hrange r hr) c hc'
      rw [h2, h2', he.entry hclash hk (hinc r.period (hrange r hr)) h1 h1']
    · have hup : IsUpdate m' r.period r.var := ((C01_update_info_exact hpm').2.1 r.period r.var).mp ⟨r, hr, rfl, rfl⟩
      rcases List.mem_cons.mp hc' with rfl | hc'
      · exact absurd List.mem_cons_self hc2
      · rw [hzero r.period r.var c hup hc' (fun h => hc2 (List.mem_cons_of_mem _ h)), mul_zero]

end Skill
