import Verif.Model.Pipeline
import Verif.Props.ParseParams2
import Verif.Props.ProcessData
import Verif.Spec.LabelModel
/- The likelihood function evaluated with the arrays of a model, by label. -/
namespace Skill
open Matrix Spec
variable {β γ : Type}

/-! ### arrays -/

theorem toArray1_map (l : List γ) (d : γ) (g : γ → β) {k : ℕ} (hk : l.length = k) : toArray1 k (l.map g) = .ok (fun i => g (l.getD i.val d)) := by
  subst hk
  unfold toArray1
  rw [dif_pos (by simp)]
  congr 1
  funext i
  simp

theorem toArray1_ofFn {k : ℕ} (g : Fin k → β) : toArray1 k (List.ofFn g) = .ok g := by
  unfold toArray1
  rw [dif_pos (by simp)]
  congr 1
  funext i
  simp

theorem toArray1_ok {k : ℕ} {xs : List β} {g : Fin k → β} (h : toArray1 k xs = .ok g) : xs.length = k ∧ ∀ i : Fin k, xs[i.val]? = some (g i) := by
  unfold toArray1 at h
  split at h
  · next hl =>
    refine ⟨hl, fun i => ?_⟩
    have := Except.ok.inj h
    rw [← this]
    exact List.getElem?_eq_getElem _
  · cases h

theorem toArray2_ok {k l : ℕ} {xs : List (List β)} {g : Fin k → Fin l → β} (h : toArray2 k l xs = .ok g) :
    xs.length = k ∧ ∀ (i : Fin k) (j : Fin l), entry2 xs i j = some (g i j) := by
  unfold toArray2 at h
  obtain ⟨rows, h1, h2⟩ := py_bind_ok.mp h
  obtain ⟨h3, h4⟩ := toArray1_ok h2
  have h1 := (mapM_ok_iff _ _ _).mp h1
  refine ⟨h1.length_eq.trans h3, fun i j => ?_⟩
  obtain ⟨x, hx, hx2⟩ := forall₂_getElem?_right h1 (h4 i)
  unfold entry2
  rw [hx, Option.bind_some]
  exact (toArray1_ok hx2).2 j

theorem toArray3_ok {k l p : ℕ} {xs : List (List (List β))} {g : Fin k → Fin l → Fin p → β} (h : toArray3 k l p xs = .ok g) :
    xs.length = k ∧ ∀ (i : Fin k) (j : Fin l) (a : Fin p), entry3 xs i j a = some (g i j a) := by
  unfold toArray3 at h
  obtain ⟨rows, h1, h2⟩ := py_bind_ok.mp h
  obtain ⟨h3, h4⟩ := toArray1_ok h2
  have h1 := (mapM_ok_iff _ _ _).mp h1
  refine ⟨h1.length_eq.trans h3, fun i j a => ?_⟩
  obtain ⟨x, hx, hx2⟩ := forall₂_getElem?_right h1 (h4 i)
  unfold entry3
  rw [hx, Option.bind_some]
  exact (toArray2_ok hx2).2 j a

theorem toArray4_ok {k l p q : ℕ} {xs : List (List (List (List β)))} {g : Fin k → Fin l → Fin p → Fin q → β} (h : toArray4 k l p q xs = .ok g) :
    xs.length = k ∧ ∀ (i : Fin k) (j : Fin l) (a : Fin p) (b : Fin q), xs[i.val]?.bind (fun x => entry3 x j a b) = some (g i j a b) := by
  unfold toArray4 at h
  obtain ⟨rows, h1, h2⟩ := py_bind_ok.mp h
  obtain ⟨h3, h4⟩ := toArray1_ok h2
  have h1 := (mapM_ok_iff _ _ _).mp h1
  refine ⟨h1.length_eq.trans h3, fun i j a b => ?_⟩
  obtain ⟨x, hx, hx2⟩ := forall₂_getElem?_right h1 (h4 i)
  rw [hx, Option.bind_some]
  exact (toArray3_ok hx2).2 j a b

/-- Arrays of the right shape. -/
theorem toArray2_exists {k l : ℕ} {xs : List (List β)} (h1 : xs.length = k) (h2 : ∀ x ∈ xs, x.length = l) : ∃ g, toArray2 k l xs = .ok g := by
  unfold toArray2
  obtain ⟨rows, hr⟩ := mapM_exists (f := toArray1 l) (xs := xs) (fun x hx => ⟨_, dif_pos (h2 x hx)⟩)
  have hlen : rows.length = k := by rw [← ((mapM_ok_iff _ _ _).mp hr).length_eq, h1]
  exact ⟨_, py_bind_ok.mpr ⟨rows, hr, dif_pos hlen⟩⟩

theorem toArray3_exists {k l p : ℕ} {xs : List (List (List β))} (h1 : xs.length = k) (h2 : ∀ x ∈ xs, x.length = l ∧ ∀ y ∈ x, y.length = p) : ∃ g, toArray3 k l p xs = .ok g := by
  unfold toArray3
  obtain ⟨rows, hr⟩ := mapM_exists (f := toArray2 l p) (xs := xs) (fun x hx => toArray2_exists (h2 x hx).1 (h2 x hx).2)
  have hlen : rows.length = k := by rw [← ((mapM_ok_iff _ _ _).mp hr).length_eq, h1]
  exact ⟨_, py_bind_ok.mpr ⟨rows, hr, dif_pos hlen⟩⟩

theorem toArray4_exists {k l p q : ℕ} {xs : List (List (List (List β)))} (h1 : xs.length = k) (h2 : ∀ x ∈ xs, x.length = l ∧ ∀ y ∈ x, y.length = p ∧ ∀ z ∈ y, z.length = q) :
    ∃ g, toArray4 k l p q xs = .ok g := by
  unfold toArray4
  obtain ⟨rows, hr⟩ := mapM_exists (f := toArray3 l p q) (xs := xs) (fun x hx => toArray3_exists (h2 x hx).1 (h2 x hx).2)
  have hlen : rows.length = k := by rw [← ((mapM_ok_iff _ _ _).mp hr).length_eq, h1]
  exact ⟨_, py_bind_ok.mpr ⟨rows, hr, dif_pos hlen⟩⟩

/-! ### the arrays of a model -/

/-- Number of latent factors, observed factors and controls. -/
abbrev nLat (m : ModelDict ℝ) : ℕ := m.factors.length
abbrev nObsd (m : ModelDict ℝ) : ℕ := (m.observedFactors.getD []).length
abbrev nCon (m : ModelDict ℝ) : ℕ := (m.controls.getD []).length + 1

/-- Names by position. -/
abbrev latName (m : ModelDict ℝ) (j : ℕ) : String := (m.factors.map Prod.fst).getD j ""
abbrev allName (m : ModelDict ℝ) (j : ℕ) : String := (allFactors m).getD j ""
abbrev conName (m : ModelDict ℝ) (j : ℕ) : String := ("constant" :: m.controls.getD []).getD j ""

/-- The outcome in which a factor is anchored. -/
def outcomeOf (m : ModelDict ℝ) (f : String) : Option String := Dict.get? (outcomesOf m) f

/-- The entries of the anchoring arrays. -/
noncomputable def scalingOf (m : ModelDict ℝ) (val : Loc → ℝ) (t : ℕ) (f : String) : ℝ :=
  ((outcomeOf m f).map (fun o => val ⟨.loadings, t, o ++ "_" ++ f, f⟩)).getD 1

open Classical in
noncomputable def constantOf (m : ModelDict ℝ) (val : Loc → ℝ) (t : ℕ) (f : String) : ℝ :=
  if AnchorFlag m AnchoringSpec.ignoreConstant then 0 else ((outcomeOf m f).map (fun o => val ⟨.controls, t, o ++ "_" ++ f, "constant"⟩)).getD 0

/-- The parameters of the transition functions in period `t`. -/
def transParams (pm : Processed ℝ) (val : Loc → ℝ) (t : ℕ) : Dict (List ℝ) := pm.transitionInfo.paramNames.map (fun fn => (fn.1, fn.2.map (fun nm => val ⟨.transition, t, fn.1, nm⟩)))

/-- `scanInputs` by label. -/
noncomputable def labelFixed (custom : String → CustomFn) (m : ModelDict ℝ) (pm : Processed ℝ) (val : Loc → ℝ) (nObs nT : ℕ) (controls : Fin (nT + 2) → Fin nObs → Fin (nCon m) → ℝ)
    (observed : Fin (nT + 2) → Fin nObs → Fin (nObsd m) → ℝ) : ScanFixed nObs nT (nLat m) (nObsd m) (nCon m) (Dict (List ℝ)) where
  controls := controls
  observed := observed
  transition := fun t => transParams pm val t
  shockSds := fun t f => val ⟨.shockSds, t, latName m f, "-"⟩
  scaling := fun t f => scalingOf m val t (allName m f)
  constants := fun t f => constantOf m val t (allName m f)
  sigmaScalingFactor := sigmaScalingFactor (nLat m) pm.estimationOptions.sigmaPointsScale
  sigmaWeights := sigmaWeights (nLat m) pm.estimationOptions.sigmaPointsScale
  func := fun params states => transitionValues (nLat m) (allFactors m) (transitionFns custom m) params states

/-- `initialCarry` by label. -/
noncomputable def labelCarry (m : ModelDict ℝ) (val : Loc → ℝ) (nObs nMix : ℕ) : Carry nObs nMix (nLat m) where
  states := fun _ e f => val ⟨.initialStates, 0, mixtureName e, latName m f⟩
  upperChols := fun _ e => of (fun a b => if a ≤ b then val ⟨.initialCholcovs, 0, mixtureName e, latName m b ++ "-" ++ latName m a⟩ else 0)
  logWeights := fun _ e => Real.log (val ⟨.mixtureWeights, 0, mixtureName e, "-"⟩)

/-- The parameters of one update by label. -/
def labelRow (m : ModelDict ℝ) (val : Loc → ℝ) (r : URow) : UpdateParams (nLat m) (nCon m) where
  period := r.period
  var := r.var
  isMeasurement := decide (r.purpose = .measurement)
  loadings := fun f => if latName m f ∈ r.trueCols then val ⟨.loadings, r.period, r.var, latName m f⟩ else 0
  controlParams := fun c => val ⟨.controls, r.period, r.var, conName m c⟩
  sd := val ⟨.measSds, r.period, r.var, "-"⟩

theorem nodup_get? {l : List String} (hn : l.Nodup) {i : ℕ} {f : String} (h : l[i]? = some f) : l.idxOf f = i := by
  obtain ⟨hlt, rfl⟩ := List.getElem?_eq_some_iff.mp h
  exact hn.idxOf_getElem i hlt

theorem dimensions_eq {m : ModelDict ℝ} {pm : Processed ℝ} (h : processModel m = .ok pm) :
    pm.dimensions.nLatentFactors = nLat m ∧ pm.dimensions.nObservedFactors = nObsd m ∧ pm.dimensions.nControls = nCon m := by
  obtain ⟨o, n, ho, hn, he⟩ := getDimensions_ok (processModel_ok_iff.mp h).1
  rw [he]
  exact ⟨rfl, rfl, rfl⟩

theorem latName_get {m : ModelDict ℝ} (j : Fin (nLat m)) : (m.factors.map Prod.fst)[j.val]? = some (latName m j) := by
  rw [latName, List.getD_eq_getElem?_getD, List.getElem?_eq_getElem (by simp), Option.getD_some]

theorem allName_get {m : ModelDict ℝ} (j : Fin (nLat m + nObsd m)) : (allFactors m)[j.val]? = some (allName m j) := by
  rw [allName, List.getD_eq_getElem?_getD, List.getElem?_eq_getElem (by simp [allFactors]), Option.getD_some]

theorem conName_get {m : ModelDict ℝ} (j : Fin (nCon m)) : ("constant" :: m.controls.getD [])[j.val]? = some (conName m j) := by
  rw [conName, List.getD_eq_getElem?_getD, List.getElem?_eq_getElem (by have := j.isLt; simpa using this), Option.getD_some]

theorem transition_arrays (pm : Processed ℝ) (val : Loc → ℝ) (nT : ℕ) :
    (pm.transitionInfo.paramNames.map (fun fn => (fn.1, (List.range (nT + 1)).map (fun t => fn.2.map (fun nm => val ⟨.transition, t, fn.1, nm⟩))))).mapM (fun fa => do
      let arr ← toArray1 (nT + 1) fa.2
      pure (fa.1, arr)) = (.ok (pm.transitionInfo.paramNames.map (fun fn => (fn.1, fun t : Fin (nT + 1) => fn.2.map (fun nm => val ⟨.transition, t, fn.1, nm⟩)))) : Py (List (String × (Fin (nT + 1) → List ℝ)))) := by
  rw [mapM_ok_iff, List.forall₂_map_left_iff, List.forall₂_map_right_iff, List.forall₂_same]
  intro fn _
  refine py_bind_ok.mpr ⟨_, toArray1_map _ 0 _ (by simp), ?_⟩
  rw [py_pure_ok]
  congr 1
  funext t
  congr 1
  funext nm
  congr 2
  rw [List.getD_eq_getElem?_getD, List.getElem?_range t.isLt, Option.getD_some]

theorem entry2_map {δ ε : Type} (xs : List δ) (ys : δ → List ε) (g : δ → ε → β) {i j : ℕ} {x : δ} {y : ε} (hx : xs[i]? = some x) (hy : (ys x)[j]? = some y) :
    entry2 (xs.map (fun x => (ys x).map (g x))) i j = some (g x y) := by
  unfold entry2
  rw [List.getElem?_map, hx, Option.map_some, Option.bind_some, List.getElem?_map, hy, Option.map_some]

theorem entry3_fillNaN {nan : ℝ} {xs : List (List (List (Option ℝ)))} {i j k : ℕ} {x : ℝ} (h : entry3 (fillNaN nan xs) i j k = some x) :
    ∃ w, entry3 xs i j k = some w ∧ x = w.getD nan := by
  unfold entry3 entry2 fillNaN at *
  rw [List.getElem?_map] at h
  cases h1 : xs[i]? with
  | none => rw [h1] at h; simp at h
  | some a =>
    rw [h1, Option.map_some, Option.bind_some, List.getElem?_map] at h
    cases h2 : a[j]? with
    | none => rw [h2] at h; simp at h
    | some b =>
      rw [h2, Option.map_some, Option.bind_some, List.getElem?_map] at h
      cases h3 : b[k]? with
      | none => rw [h3] at h; simp at h
      | some c =>
        rw [h3, Option.map_some, Option.some.injEq] at h
        exact ⟨c, by rw [Option.bind_some, h2, Option.bind_some, h3], h.symm⟩

theorem outcomeOf_some {m : ModelDict ℝ} (hk : DictKeys m) {f o : String} : outcomeOf m f = some o ↔ AnchoredIn m f o := by
  rw [← mem_outcomesOf]
  unfold outcomeOf
  constructor
  · intro h
    unfold Dict.get? at h
    obtain ⟨x, hx, rfl⟩ := Option.map_eq_some_iff.mp h
    have h1 := List.mem_of_find?_eq_some hx
    have h2 := List.find?_some hx
    simp only [beq_iff_eq] at h2
    rw [← h2]
    exact h1
  · intro h
    have := Dict.getItem_of_mem (outcomesOf_nodup hk) h
    unfold Dict.getItem at this
    split at this
    · next v hv => rw [hv]; exact congrArg some (Except.ok.inj this)
    · cases this

/-- The parsed parameters by label. -/
theorem scanInputs_label {m : ModelDict ℝ} {pm : Processed ℝ} (hpm : processModel m = .ok pm) (hg : GoodNames m) (hc : CleanAnchoring m) (ho : SameOrder m) (custom : String → CustomFn) {val : Loc → ℝ}
    {nObs nT : ℕ} (hT : pm.dimensions.nPeriods = nT + 2) {p : Parsed ℝ} (hp : pm.parse Real.log (pm.paramsIndex.map val) nObs = .ok p) {nan : ℝ} {controls observed : List (List (List (Option ℝ)))}
    {fixed : ScanFixed nObs nT (nLat m) (nObsd m) (nCon m) (Dict (List ℝ))}
    (h : scanInputs nObs nT (nLat m) (nObsd m) (nCon m) nan (allFactors m) (transitionFns custom m) pm.estimationOptions.sigmaPointsScale p controls observed = .ok fixed) :
    ∃ con obs, fixed = labelFixed custom m pm val nObs nT con obs ∧ (∀ (t : Fin (nT + 2)) (i : Fin nObs) (j : Fin (nCon m)), ∃ w, entry3 controls t i j = some w ∧ con t i j = w.getD nan) ∧
      (∀ (t : Fin (nT + 2)) (i : Fin nObs) (j : Fin (nObsd m)), ∃ w, entry3 observed t i j = some w ∧ obs t i j = w.getD nan) := by
  obtain ⟨_, _, _, _, _, _, hshock, htrans⟩ := C07_parsed_values hpm hg rfl hp
  rw [hT] at hshock htrans
  unfold scanInputs at h
  simp only [py_bind_ok, py_pure_ok] at h
  obtain ⟨con, h1, obs, h2, tr, h3, sh, h4, sc, h5, co, h6, rfl⟩ := h
  refine ⟨con, obs, ?_, fun t i j => entry3_fillNaN ((toArray3_ok h1).2 t i j), fun t i j => entry3_fillNaN ((toArray3_ok h2).2 t i j)⟩
  have e3 : tr = pm.transitionInfo.paramNames.map (fun fn => (fn.1, fun t : Fin (nT + 1) => fn.2.map (fun nm => val ⟨.transition, t, fn.1, nm⟩))) := by
    have := transition_arrays pm val nT
    rw [htrans] at h3
    exact Except.ok.inj (h3.symm.trans this)
  have e4 : sh = fun (t : Fin (nT + 1)) (f : Fin (nLat m)) => val ⟨.shockSds, t, latName m f, "-"⟩ := by
    funext t f
    have := (toArray2_ok h4).2 t f
    rw [hshock] at this
    rw [entry2_map (List.range (nT + 2 - 1)) (fun _ => m.factors.map Prod.fst) (fun t f => val ⟨.shockSds, t, f, "-"⟩) (x := t.val) (by rw [List.getElem?_range]; have := t.isLt; omega) (latName_get f)] at this
    exact (Option.some.inj this).symm
  have hanch := fun (t : Fin (nT + 2)) (f : Fin (nLat m + nObsd m)) => C08_anchoring_params_partial hpm hg hc ho rfl hp t f (allName m f) ((isPeriod_iff hpm t).mpr (by have := t.isLt; omega)) (allName_get f)
  have e5 : sc = fun (t : Fin (nT + 2)) (f : Fin (nLat m + nObsd m)) => scalingOf m val t (allName m f) := by
    funext t f
    have h7 := (toArray2_ok h5).2 t f
    obtain ⟨a1, a2, _⟩ := hanch t f
    unfold scalingOf
    cases hout : outcomeOf m (allName m f) with
    | some o =>
      have := (a1 o ((outcomeOf_some hg.keys).mp hout)).1
      exact Option.some.inj (h7.symm.trans this)
    | none =>
      have := (a2 (by rintro ⟨o, ho⟩; rw [(outcomeOf_some hg.keys).mpr ho] at hout; cases hout)).1
      exact Option.some.inj (h7.symm.trans this)
  have e6 : co = fun (t : Fin (nT + 2)) (f : Fin (nLat m + nObsd m)) => constantOf m val t (allName m f) := by
    funext t f
    have h7 := (toArray2_ok h6).2 t f
    obtain ⟨a1, a2, a3⟩ := hanch t f
    unfold constantOf
    split
    · next hf => exact Option.some.inj (h7.symm.trans (a3 hf))
    · next hf =>
      cases hout : outcomeOf m (allName m f) with
      | some o =>
        have := (a1 o ((outcomeOf_some hg.keys).mp hout)).2 hf
        exact Option.some.inj (h7.symm.trans this)
      | none =>
        have := (a2 (by rintro ⟨o, ho⟩; rw [(outcomeOf_some hg.keys).mpr ho] at hout; cases hout)).2
        exact Option.some.inj (h7.symm.trans this)
  subst e3 e4 e5 e6
  unfold labelFixed transParams
  congr 1
  funext t
  simp only [List.map_map, Function.comp_def]

theorem initialCarry_label {m : ModelDict ℝ} {pm : Processed ℝ} (hpm : processModel m = .ok pm) (hg : GoodNames m) {val : Loc → ℝ} {nObs : ℕ} {p : Parsed ℝ}
    (hp : pm.parse Real.log (pm.paramsIndex.map val) nObs = .ok p) {carry : Carry nObs pm.dimensions.nMixtures (nLat m)} (h : initialCarry nObs pm.dimensions.nMixtures (nLat m) p = .ok carry) :
    carry = labelCarry m val nObs pm.dimensions.nMixtures := by
  obtain ⟨hst, hch, hw, _⟩ := C07_parsed_values hpm hg rfl hp
  unfold initialCarry at h
  simp only [py_bind_ok, py_pure_ok] at h
  obtain ⟨st, h1, ch, h2, w, h3, rfl⟩ := h
  unfold labelCarry
  congr 1
  · funext i e f
    have := (toArray3_ok h1).2 i e f
    rw [hst] at this
    unfold entry3 at this
    rw [List.getElem?_replicate, if_pos i.isLt, Option.bind_some,
      entry2_map (List.range _) (fun _ => m.factors.map Prod.fst) (fun e f => val ⟨.initialStates, 0, "mixture_" ++ toString e, f⟩) (x := e.val) (List.getElem?_range e.isLt) (latName_get f)] at this
    exact (Option.some.inj this).symm
  · funext i e
    ext a b
    have := (toArray4_ok h2).2 i e a b
    rw [hch, List.getElem?_replicate, if_pos i.isLt, Option.bind_some] at this
    unfold entry3 at this
    rw [List.getElem?_map, List.getElem?_range e.isLt, Option.map_some, Option.bind_some,
      entry2_map (List.range _) (fun _ => List.range _) (fun i j => if i ≤ j then val ⟨.initialCholcovs, 0, "mixture_" ++ toString e.val,
          (m.factors.map Prod.fst).getD j "" ++ "-" ++ (m.factors.map Prod.fst).getD i ""⟩ else 0) (List.getElem?_range a.isLt) (List.getElem?_range b.isLt)] at this
    exact (Option.some.inj this).symm
  · funext i e
    have := (toArray2_ok h3).2 i e
    rw [hw] at this
    unfold entry2 at this
    rw [List.getElem?_replicate, if_pos i.isLt, Option.bind_some, List.getElem?_map, List.getElem?_range e.isLt, Option.map_some] at this
    exact (Option.some.inj this).symm

theorem loopParams_label {m : ModelDict ℝ} {pm : Processed ℝ} (hpm : processModel m = .ok pm) (hg : GoodNames m) {val : Loc → ℝ} {nObs : ℕ} {p : Parsed ℝ}
    (hp : pm.parse Real.log (pm.paramsIndex.map val) nObs = .ok p) {rows : List (UpdateParams (nLat m) (nCon m))} (h : loopParams (nLat m) (nCon m) pm.updateInfo p = .ok rows) :
    rows = pm.updateInfo.map (labelRow m val) := by
  obtain ⟨_, _, _, hcon, hload, hsd, _⟩ := C07_parsed_values hpm hg rfl hp
  unfold loopParams at h
  simp only [py_bind_ok, py_pure_ok] at h
  obtain ⟨lo, h1, co, h2, sd, h3, rfl⟩ := h
  refine List.ext_getElem (by simp) (fun k k1 k2 => ?_)
  have hk : k < pm.updateInfo.length := by simpa using k2
  rw [List.getElem_ofFn, List.getElem_map]
  have hr : pm.updateInfo[k]? = some pm.updateInfo[k] := List.getElem?_eq_getElem hk
  unfold labelRow
  congr 1
  · funext f
    have := (toArray2_ok h1).2 ⟨k, hk⟩ f
    rw [hload, entry2_map pm.updateInfo (fun _ => m.factors.map Prod.fst) (fun r f => if f ∈ r.trueCols then val ⟨.loadings, r.period, r.var, f⟩ else 0) hr (latName_get f)] at this
    exact (Option.some.inj this).symm
  · funext f
    have := (toArray2_ok h2).2 ⟨k, hk⟩ f
    rw [hcon, entry2_map pm.updateInfo (fun _ => "constant" :: m.controls.getD []) (fun r c => val ⟨.controls, r.period, r.var, c⟩) hr (conName_get f)] at this
    exact (Option.some.inj this).symm
  · have := (toArray1_ok h3).2 ⟨k, hk⟩
    rw [hsd, List.getElem?_map, hr, Option.map_some] at this
    exact (Option.some.inj this).symm

end Skill
