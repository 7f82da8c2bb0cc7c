import Verif.Lemmas.RenamedModel
import Verif.Props.ParseParams2
import Verif.Model.Pipeline
/- The likelihood function of a model with other names. -/
namespace Skill
open Spec
variable {α V β γ : Type}

/-- What matters of a label for the position of parameters. -/
def locKey (ρ : Equiv.Perm String) (l : Loc) : Cat × Nat × String := (l.cat, l.period, if l.cat = .transition then ρ l.name1 else "")

section
variable {ρ : Equiv.Perm String}

theorem index_rename {pm pm' : Processed α} (h : ProcessedRenamed ρ pm pm') : pm'.paramsIndex.map (locKey (Equiv.refl _)) = pm.paramsIndex.map (locKey ρ) := by
  unfold Processed.paramsIndex getParamsIndex
  simp only [List.map_append]
  rw [h.dimensions, h.updateInfo, h.labels.controls, h.labels.latentFactors, h.labels.periods]
  have hp : ∀ r : URow, (renameRow ρ r).period = r.period := fun _ => rfl
  have ht : ∀ r : URow, (renameRow ρ r).trueCols = r.trueCols.map ρ := fun _ => rfl
  congr 1
  · congr 1
    · congr 1
      · congr 1
        · congr 1
          · congr 1
            · congr 1
              · simp [controlParamsIndexTuples, List.map_flatMap, List.flatMap_map, Function.comp_def, locKey, hp]
              · simp [loadingsIndexTuples, List.map_flatMap, List.flatMap_map, Function.comp_def, locKey, hp, ht, List.filter_map]
            · simp [measSdsIndexTuples, Function.comp_def, locKey, hp]
          · simp [shockSdsIndexTuples, List.map_flatMap, Function.comp_def, locKey]
        · simp [initialMeanIndexTuples, List.map_flatMap, Function.comp_def, locKey]
      · simp [mixtureWeightsIndexTuples, Function.comp_def, locKey]
    · unfold initialCholcovsIndexTuples
      simp [List.map_flatMap, List.zipIdx_map, List.flatMap_map, List.filter_map, Function.comp_def, locKey]
  · unfold transitionIndexTuples
    have := h.paramNames
    revert this
    generalize pm.transitionInfo.paramNames = xs
    generalize pm'.transitionInfo.paramNames = ys
    intro hf
    induction hf with
    | nil => rfl
    | @cons a b _ _ hab _ ih =>
      obtain ⟨fa, na⟩ := a
      obtain ⟨fb, nb⟩ := b
      obtain ⟨e1, e2⟩ := hab
      dsimp only at e1 e2
      subst e1
      simp only [List.flatMap_cons, List.map_append, ih]
      congr 1
      rw [List.map_flatMap, List.map_flatMap]
      refine List.flatMap_congr fun t _ => ?_
      simp [Function.comp_def, locKey, e2, List.map_const']

theorem selectCategory_rename {pm pm' : Processed α} (h : ProcessedRenamed ρ pm pm') (c : Cat) : selectCategory pm'.paramsIndex c = selectCategory pm.paramsIndex c := by
  have h1 : ∀ (σ : Equiv.Perm String) (xs : List Loc), selectCategory xs c = positionsOf (fun k : Cat × Nat × String => decide (k.1 = c)) (xs.map (locKey σ)) := by
    intro σ xs
    rw [positionsOf_map]
    rfl
  rw [h1 (Equiv.refl _), h1 ρ, index_rename h]

theorem positionsOf_nodup {xs : List Loc} (hn : xs.Nodup) (p : Loc → Bool) : positionsOf p xs = (xs.filter p).map (fun l => xs.idxOf l) := by
  have h1 : xs.zipIdx = xs.map (fun l => (l, xs.idxOf l)) := by
    refine List.ext_getElem (by simp) (fun i h1 h2 => ?_)
    have hi : i < xs.length := by simpa using h2
    simp [hn.idxOf_getElem i hi]
  unfold positionsOf
  rw [h1, List.filter_map, List.map_map]
  rfl

theorem flatMap_positions {xs : List Loc} (hn : xs.Nodup) (p : Loc → Bool) : (xs.filter p).flatMap (fun l => positionsOf (fun k => decide (k = l)) xs) = positionsOf p xs := by
  have h1 : ∀ l ∈ xs, positionsOf (fun k => decide (k = l)) xs = [xs.idxOf l] := by
    intro l hl
    rw [positionsOf_nodup hn]
    have : xs.filter (fun k => decide (k = l)) = [l] := by
      induction xs with
      | nil => simp at hl
      | cons x xs ih =>
        rw [List.filter_cons]
        rcases List.mem_cons.mp hl with rfl | hl
        · rw [if_pos (by simp), List.filter_eq_nil_iff.mpr (fun a ha => by
            have : a ≠ l := by rintro rfl; exact (List.nodup_cons.mp hn).1 ha
            simpa using this)]
        · have : x ≠ l := by rintro rfl; exact (List.nodup_cons.mp hn).1 hl
          rw [if_neg (by simpa using this), ih (List.nodup_cons.mp hn).2 hl]
    rw [this]
    rfl
  rw [positionsOf_nodup hn, List.flatMap_congr (g := fun l => [xs.idxOf l]) (fun l hl => h1 l (List.mem_filter.mp hl).1)]
  exact List.flatMap_pure_eq_map _ _

theorem selectTransition_rename {pm pm' : Processed α} (h : ProcessedRenamed ρ pm pm') (hn : pm.paramsIndex.Nodup) (hn' : pm'.paramsIndex.Nodup) (f : String) {pos pos' : List Nat}
    (hp : selectTransition pm.paramsIndex f = .ok pos) (hp' : selectTransition pm'.paramsIndex (ρ f) = .ok pos') : pos' = pos := by
  unfold selectTransition at hp hp'
  split at hp
  case isFalse => cases hp
  split at hp'
  case isFalse => cases hp'
  rw [← Except.ok.inj hp, ← Except.ok.inj hp', flatMap_positions hn, flatMap_positions hn']
  have h1 : ∀ (σ : Equiv.Perm String) (xs : List Loc) (g : String), positionsOf (fun l : Loc => decide (l.cat = .transition ∧ l.name1 = g)) xs =
      positionsOf (fun k : Cat × Nat × String => decide (k.1 = .transition ∧ k.2.2 = σ g)) (xs.map (locKey σ)) := by
    intro σ xs g
    rw [positionsOf_map]
    congr 1
    funext l
    by_cases hc : l.cat = .transition <;> simp [locKey, hc]
  rw [h1 (Equiv.refl _), h1 ρ, index_rename h]
  rfl

theorem updateMask_rename (u : List URow) (fs : List String) : updateMask (u.map (renameRow ρ)) (fs.map ρ) = updateMask u fs := by
  unfold updateMask
  rw [List.map_map]
  refine List.map_congr_left fun r _ => ?_
  simp [Function.comp_def, renameRow]

theorem parsingInfo_rename {pm pm' : Processed α} (h : ProcessedRenamed ρ pm pm') (hn : pm.paramsIndex.Nodup) (hn' : pm'.paramsIndex.Nodup) {info info' : ParsingInfo}
    (hi : createParsingInfo pm.paramsIndex pm.updateInfo pm.labels pm.anchoring = .ok info) (hi' : createParsingInfo pm'.paramsIndex pm'.updateInfo pm'.labels pm'.anchoring = .ok info') :
    info' = { info with transition := renameKeys ρ info.transition } := by
  unfold createParsingInfo at hi hi'
  simp only [py_bind_ok, py_pure_ok] at hi hi'
  obtain ⟨tr, ht, rfl⟩ := hi
  obtain ⟨tr', ht', rfl⟩ := hi'
  have htr : tr' = renameKeys ρ tr := by
    rw [h.labels.latentFactors, List.mapM_map] at ht'
    rw [mapM_ok_iff] at ht ht'
    revert ht ht'
    generalize pm.labels.latentFactors = fs
    intro ht ht'
    induction ht generalizing tr' with
    | nil => cases ht'; rfl
    | @cons f y _ _ hy _ ih =>
      cases ht' with
      | @cons _ y' _ _ hy' hr =>
        obtain ⟨pos, hp, rfl⟩ : ∃ pos, selectTransition pm.paramsIndex f = .ok pos ∧ (f, pos) = y := by simpa only [py_bind_ok, py_pure_ok] using hy
        obtain ⟨pos', hp', rfl⟩ : ∃ pos, selectTransition pm'.paramsIndex (ρ f) = .ok pos ∧ (ρ f, pos) = y' := by simpa only [py_bind_ok, py_pure_ok, Function.comp_def] using hy'
        rw [selectTransition_rename h hn hn' f hp hp', ih _ hr]
        rfl
  simp only [selectCategory_rename h, h.updateInfo, h.labels.latentFactors, updateMask_rename, htr, h.anchoring, List.length_map, List.map_map, Function.comp_def, List.filter_map, List.any_map]
  have e1 : ∀ r : URow, (renameRow ρ r).purpose = r.purpose := fun _ => rfl
  have e2 : ∀ r : URow, (renameRow ρ r).trueCols = r.trueCols.map ρ := fun _ => rfl
  simp only [e1, e2, mem_map_perm]
  rfl

/-! ### parse_params -/

theorem transitionParams_rename (vec : List β) (info : ParsingInfo) {l l' : Labels} (hl : LabelsRenamed ρ l l') :
    getTransitionParams vec { info with transition := renameKeys ρ info.transition } l' = (getTransitionParams vec info l).map (renameKeys ρ) := by
  unfold getTransitionParams
  rw [hl.latentFactors, hl.periods, List.mapM_map]
  show _ = Except.map (List.map _) _
  rw [← mapM_map_except]
  congr 1
  funext f
  simp only [Function.comp_def, getItem_renameKeys]
  cases Dict.getItem info.transition f with
  | error e => rfl
  | ok pos =>
    show (gather vec pos >>= _) = Except.map _ (gather vec pos >>= _)
    cases gather vec pos with
    | error e => rfl
    | ok xs =>
      show (reshapeRows (l.periods.length - 1) xs >>= _) = Except.map _ (reshapeRows (l.periods.length - 1) xs >>= _)
      cases reshapeRows (l.periods.length - 1) xs <;> rfl

theorem bind_map_except {δ : Type} (x : Py β) (f : β → Py γ) (g : γ → δ) : (x >>= f).map g = x >>= fun a => (f a).map g := by
  cases x <;> rfl

theorem map_bind_except {δ : Type} (x : Py β) (g : β → γ) (f : γ → Py δ) : x.map g >>= f = x >>= fun a => f (g a) := by
  cases x <;> rfl

theorem parseParams_rename [Zero β] [One β] (log : β → β) (vec : List β) (info : ParsingInfo) (d : Dimensions) {l l' : Labels} (hl : LabelsRenamed ρ l l') (nObs : Nat) :
    parseParams log vec { info with transition := renameKeys ρ info.transition } d l' nObs = (parseParams log vec info d l nObs).map (fun p => { p with transition := renameKeys ρ p.transition }) := by
  unfold parseParams
  simp only [bind_map_except, transitionParams_rename vec info hl, map_bind_except]
  rfl

/-! ### the transition functions -/

theorem extractFactor_rename (fs : List String) (states : List ℝ) (f : String) : extractFactor (fs.map ρ) states (ρ f) = extractFactor fs states f := by
  unfold extractFactor
  rw [idxOf_map_perm]
  simp only [mem_map_perm]

theorem nextFactor_rename (custom : String → CustomFn) (fs : List String) (params : Dict (List ℝ)) (states : List ℝ) (f : String) (spec : TransSpec) :
    nextFactor (fs.map ρ) (renameKeys ρ params) states (ρ f) (transFnOf (renameCustom ρ custom (ρ f)) spec) = nextFactor fs params states f (transFnOf (custom f) spec) := by
  unfold nextFactor
  rw [getItem_renameKeys]
  congr 1
  funext p
  cases spec with
  | named name => simp only [transFnOf, extractFactor_rename]
  | custom fname registered =>
    simp only [transFnOf, renameCustom, Equiv.symm_apply_apply, List.mapM_map, Function.comp_def, extractFactor_rename]
    have : (custom f).1.mapM (fun a => do
        let v ← extractFactor fs states a
        pure (ρ a, v)) = ((custom f).1.mapM (fun a => do
        let v ← extractFactor fs states a
        pure (a, v))).map (renameKeys ρ) := by
      show _ = Except.map (List.map _) _
      rw [← mapM_map_except]
      congr 1
      funext a
      cases extractFactor fs states a <;> rfl
    have hinv : ∀ d : Dict ℝ, renameKeys ρ.symm (renameKeys ρ d) = d := by
      intro d
      simp [renameKeys, Function.comp_def]
    rw [this, map_bind_except]
    simp only [hinv]

theorem transitionFunction_rename {α : Type} (custom : String → CustomFn) (m : ModelDict α) (fs : List String) (params : Dict (List ℝ)) (states : List ℝ) :
    transitionFunction (fs.map ρ) (transitionFns (renameCustom ρ custom) (renameModel ρ m)) (renameKeys ρ params) states = transitionFunction fs (transitionFns custom m) params states := by
  unfold transitionFunction transitionFns
  simp only [renameModel, List.map_map, List.mapM_map, Function.comp_def, renameFactor, nextFactor_rename]

/-! ### the likelihood function -/

/-- The transition functions with their parameters in each period. -/
def ScanFixed.applied {nObs nT n nObserved nC : ℕ} {θ : Type} (fixed : ScanFixed nObs nT n nObserved nC θ) : ScanFixed nObs nT n nObserved nC ((Fin (n + nObserved) → ℝ) → Fin n → ℝ) where
  controls := fixed.controls
  observed := fixed.observed
  transition := fun t => fixed.func (fixed.transition t)
  shockSds := fixed.shockSds
  scaling := fixed.scaling
  constants := fixed.constants
  sigmaScalingFactor := fixed.sigmaScalingFactor
  sigmaWeights := fixed.sigmaWeights
  func := fun f => f

theorem logLikelihood_applied {nObs nMix nT n nObserved nC : ℕ} {θ : Type} (qr : QR) (fixed : ScanFixed nObs nT n nObserved nC θ) (clip : ClipOptions) (initial : Carry nObs nMix n) (args : List (LoopArgs nObs n nC)) :
    logLikelihood qr fixed clip initial args = logLikelihood qr fixed.applied clip initial args := by
  have : ∀ (args : List (LoopArgs nObs n nC)) (initial : Carry nObs nMix n), scan qr fixed initial args = scan qr fixed.applied initial args := by
    intro args
    induction args with
    | nil => intro initial; rfl
    | cons a args ih =>
      intro initial
      simp only [scan, ih]
      rfl
  unfold logLikelihood
  rw [this]

theorem scanInputs_rename {α : Type} (custom : String → CustomFn) (m : ModelDict α) (nObs nT n nObserved nC : ℕ) (nan : ℝ) (fs : List String) (kappa : ℝ) (p : Parsed ℝ) (controls observed : List (List (List (Option ℝ)))) :
    (scanInputs nObs nT n nObserved nC nan (fs.map ρ) (transitionFns (renameCustom ρ custom) (renameModel ρ m)) kappa { p with transition := renameKeys ρ p.transition } controls observed).map
        (fun fixed => (fixed.applied, transitionFunction (fs.map ρ) (transitionFns (renameCustom ρ custom) (renameModel ρ m)) (fixed.transition 0) (List.replicate (n + nObserved) 0))) =
      (scanInputs nObs nT n nObserved nC nan fs (transitionFns custom m) kappa p controls observed).map
        (fun fixed => (fixed.applied, transitionFunction fs (transitionFns custom m) (fixed.transition 0) (List.replicate (n + nObserved) 0))) := by
  unfold scanInputs
  have h1 : (renameKeys ρ p.transition).mapM (fun (fa : String × List (List ℝ)) => do
      let arr ← toArray1 (nT + 1) fa.2
      pure (fa.1, arr)) = (p.transition.mapM (fun (fa : String × List (List ℝ)) => do
      let arr ← toArray1 (nT + 1) fa.2
      pure (fa.1, arr))).map (renameKeys ρ) := by
    show _ = Except.map (List.map _) _
    rw [← mapM_map_except, renameKeys, List.mapM_map]
    congr 1
    funext fa
    simp only [Function.comp_def]
    cases toArray1 (nT + 1) fa.2 <;> rfl
  simp only [h1, bind_map_except, map_bind_except]
  refine bind_congr fun a1 => ?_
  refine bind_congr fun a2 => ?_
  refine bind_congr fun tr => ?_
  refine bind_congr fun a3 => ?_
  refine bind_congr fun a4 => ?_
  refine bind_congr fun a5 => ?_
  have h2 : ∀ t : Fin (nT + 1), (renameKeys ρ tr).map (fun fa => (fa.1, fa.2 t)) = renameKeys ρ (tr.map (fun fa => (fa.1, fa.2 t))) := by
    intro t
    simp [renameKeys, Function.comp_def]
  have h3 : ∀ (params : Dict (List ℝ)) (states : Fin (n + nObserved) → ℝ), transitionValues n (fs.map ρ) (transitionFns (renameCustom ρ custom) (renameModel ρ m)) (renameKeys ρ params) states =
      transitionValues n fs (transitionFns custom m) params states := by
    intro params states
    unfold transitionValues
    simp only [transitionFunction_rename]
  show Except.ok _ = Except.ok _
  congr 1
  simp only [h2, h3, transitionFunction_rename, ScanFixed.applied]

theorem loopParams_length (n nC N : ℕ) (u : List URow) (p : Parsed ℝ) (h : u.length = N) : loopParams n nC u p = (do
    let loadings ← toArray2 N n p.loadings
    let controlParams ← toArray2 N nC p.controls
    let measSds ← toArray1 N p.measSds
    pure (List.ofFn (fun k : Fin N => { period := (u.get (k.cast h.symm)).period, var := (u.get (k.cast h.symm)).var, isMeasurement := decide ((u.get (k.cast h.symm)).purpose = .measurement)
                                        loadings := loadings k, controlParams := controlParams k, sd := measSds k }))) := by
  subst h
  rfl

theorem loopParams_rename (n nC : ℕ) (u : List URow) (p p' : Parsed ℝ) (hp1 : p'.loadings = p.loadings) (hp2 : p'.controls = p.controls) (hp3 : p'.measSds = p.measSds) :
    loopParams n nC (u.map (renameRow ρ)) p' = (loopParams n nC u p).map (fun rows => rows.map (fun r => { r with var := ρ r.var })) := by
  rw [loopParams_length n nC u.length (u.map (renameRow ρ)) p' (by simp), hp1, hp2, hp3]
  unfold loopParams
  simp only [bind_map_except]
  refine bind_congr fun a1 => ?_
  refine bind_congr fun a2 => ?_
  refine bind_congr fun a3 => ?_
  show Except.ok _ = Except.ok _
  congr 1
  dsimp only
  rw [List.map_ofFn]
  congr 1
  funext k
  simp [renameRow]

theorem loopArgs_rename {n nC nObs : ℕ} (lastPeriod : ℕ) (rows : List (UpdateParams n nC)) (data : List (Fin nObs → Option ℝ)) :
    loopArgs lastPeriod (rows.map (fun r => { r with var := ρ r.var })) data = loopArgs lastPeriod rows data := by
  unfold loopArgs
  rw [List.map_map, List.zip_map_left, List.zip_map_left, List.map_map]
  rfl

/-- The arguments of the loop. -/
noncomputable def loopArgsOf (n nC nObs lastPeriod : ℕ) (u : List URow) (p : Parsed ℝ) (measurements : List (List (Option ℝ))) : Py (List (LoopArgs nObs n nC)) :=
  loopParams n nC u p >>= fun rows => (toArray2 u.length nObs measurements).map List.ofFn >>= fun data => .ok (loopArgs lastPeriod rows data)

theorem loopArgsOf_rename (n nC nObs lastPeriod : ℕ) (u : List URow) (p p' : Parsed ℝ) (hp1 : p'.loadings = p.loadings) (hp2 : p'.controls = p.controls) (hp3 : p'.measSds = p.measSds)
    (measurements : List (List (Option ℝ))) : loopArgsOf n nC nObs lastPeriod (u.map (renameRow ρ)) p' measurements = loopArgsOf n nC nObs lastPeriod u p measurements := by
  unfold loopArgsOf
  rw [List.length_map, loopParams_rename n nC u p p' hp1 hp2 hp3, map_bind_except]
  simp only [loopArgs_rename]

theorem bind_assoc_except {δ : Type} (x : Py β) (f : β → Py γ) (g : γ → Py δ) : x >>= f >>= g = x >>= fun a => f a >>= g := by
  cases x <;> rfl

theorem ok_bind_except (a : β) (f : β → Py γ) : (Except.ok a : Py β) >>= f = f a := rfl

theorem logLikelihoodJax_eq (post : (nObs nMix n : ℕ) → LoglikeResult nObs nMix n → Py γ) (qr : QR) (nObs nMix nT n nObserved nC : ℕ) (nan : ℝ) (fs : List String) (fns : Dict TransFn)
    (kappa : ℝ) (clip : ClipOptions) (u : List URow) (p : Parsed ℝ) (measurements : List (List (Option ℝ))) (controls observed : List (List (List (Option ℝ)))) :
    logLikelihoodJax post qr nObs nMix nT n nObserved nC nan fs fns kappa clip u p measurements controls observed =
      ((scanInputs nObs nT n nObserved nC nan fs fns kappa p controls observed).map (fun fixed => (fixed.applied, transitionFunction fs fns (fixed.transition 0) (List.replicate (n + nObserved) 0)))) >>= fun ft =>
        initialCarry nObs nMix n p >>= fun carry => loopArgsOf n nC nObs (nT + 1) u p measurements >>= fun args => ft.2 >>= fun _ => logLikelihood qr ft.1 clip carry args >>= fun r => post nObs nMix n r := by
  unfold logLikelihoodJax loopArgsOf
  simp only [map_bind_except, bind_assoc_except, ← logLikelihood_applied, ok_bind_except]

theorem logLikelihoodJax_rename {α : Type} (post : (nObs nMix n : ℕ) → LoglikeResult nObs nMix n → Py γ) (qr : QR) (custom : String → CustomFn) (m : ModelDict α) (nObs nMix nT n nObserved nC : ℕ) (nan : ℝ) (fs : List String)
    (kappa : ℝ) (clip : ClipOptions) (u : List URow) (p : Parsed ℝ) (measurements : List (List (Option ℝ))) (controls observed : List (List (List (Option ℝ)))) :
    logLikelihoodJax post qr nObs nMix nT n nObserved nC nan (fs.map ρ) (transitionFns (renameCustom ρ custom) (renameModel ρ m)) kappa clip (u.map (renameRow ρ)) { p with transition := renameKeys ρ p.transition } measurements controls observed =
      logLikelihoodJax post qr nObs nMix nT n nObserved nC nan fs (transitionFns custom m) kappa clip u p measurements controls observed := by
  rw [logLikelihoodJax_eq, logLikelihoodJax_eq, scanInputs_rename, loopArgsOf_rename n nC nObs (nT + 1) u p]
  · rfl
  all_goals rfl

end
end Skill
