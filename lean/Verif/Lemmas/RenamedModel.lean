import Verif.Lemmas.Renaming
import Verif.Lemmas.ParamsIndex
import Verif.Lemmas.Constraints2
import Verif.Props.CheckModel
import Verif.Props.ParamsIndex
/- process_model applied to a model with other names. -/
namespace Skill
open Spec
variable {α V β : Type}

section
variable {ρ : Equiv.Perm String}

theorem dimensions_rename (m : ModelDict α) : getDimensions (renameModel ρ m) = getDimensions m := by
  unfold getDimensions
  have h1 : ((renameModel ρ m).observedFactors.getD []).length = (m.observedFactors.getD []).length := by
    simp only [renameModel]; cases m.observedFactors <;> simp
  have h2 : ((renameModel ρ m).controls.getD []).length = (m.controls.getD []).length := by
    simp only [renameModel]; cases m.controls <;> simp
  have h3 : (renameModel ρ m).factors.map (fun fs => fs.2.measurements.length) = m.factors.map (fun fs => fs.2.measurements.length) := by
    simp [renameModel, renameFactor, Function.comp_def]
  have h4 : (renameModel ρ m).factors.length = m.factors.length := by simp [renameModel]
  rw [h1, h2, h3, h4]
  rfl

theorem labels_rename (hconst : ρ "constant" = "constant") (m : ModelDict α) (d : Dimensions) : LabelsRenamed ρ (getLabels m d) (getLabels (renameModel ρ m) d) := by
  have h1 : (renameModel ρ m).observedFactors.getD [] = (m.observedFactors.getD []).map ρ := by simp only [renameModel]; cases m.observedFactors <;> simp
  have h2 : (renameModel ρ m).controls.getD [] = (m.controls.getD []).map ρ := by simp only [renameModel]; cases m.controls <;> simp
  have h3 : Dict.keys (renameModel ρ m).factors = (Dict.keys m.factors).map ρ := by simp [Dict.keys, renameModel, Function.comp_def]
  refine ⟨h3, h1, ?_, rfl, ?_⟩
  · show "constant" :: _ = List.map ρ ("constant" :: _)
    rw [h2, List.map_cons, hconst]
  · show _ ++ _ = List.map ρ (_ ++ _)
    rw [h1, h3, List.map_append]

theorem anchoring_rename (m : ModelDict α) : processAnchoring (renameModel ρ m) = renameAnch ρ (processAnchoring m) := by
  unfold processAnchoring
  simp only [renameModel]
  cases m.anchoring with
  | none => rfl
  | some a =>
    simp only [Option.map_some]
    unfold renameAnch
    cases a.outcomes <;> simp [Dict.keys, Function.comp_def]

theorem setRow_rename (rows : List URow) (t : Nat) (v f : String) (p : Purpose) : setRow (rows.map (renameRow ρ)) t (ρ v) (ρ f) p = (setRow rows t v f p).map (renameRow ρ) := by
  induction rows with
  | nil => rfl
  | cons r rs ih =>
    have h1 : (renameRow ρ r).period = r.period := rfl
    have h2 : (renameRow ρ r).var = ρ r.var := rfl
    have h3 : (renameRow ρ r).trueCols = r.trueCols.map ρ := rfl
    simp only [setRow, List.map_cons, ih, h1, h2, h3, ρ.injective.eq_iff, mem_map_perm]
    split
    · simp only [List.map_cons, renameRow]
      split <;> simp
    · rfl

theorem fillList_map {γ : Type} (g : β → γ) (xs : List β) (fill : β) (n : Nat) : fillList (xs.map g) (g fill) n = (fillList xs fill n).map (fun ys => ys.map g) := by
  unfold fillList
  rw [List.length_map]
  split <;> simp [Except.map]

theorem mapM_map_except {γ δ : Type} (f : β → Py γ) (g : γ → δ) (xs : List β) : xs.mapM (fun x => (f x).map g) = (xs.mapM f).map (fun ys => ys.map g) := by
  induction xs with
  | nil => rfl
  | cons x xs ih =>
    simp only [List.mapM_cons, ih]
    cases f x with
    | error e => rfl
    | ok y => cases xs.mapM f <;> rfl

theorem updateInfo_rename {m : ModelDict α} (hρ : KeepsReserved ρ m) (d : Dimensions) {l l' : Labels} (hl : LabelsRenamed ρ l l') :
    getUpdateInfo (renameModel ρ m) d l' (processAnchoring (renameModel ρ m)) = (getUpdateInfo m d l (processAnchoring m)).map (fun u => u.map (renameRow ρ)) := by
  unfold getUpdateInfo
  have h1 : (renameModel ρ m).factors.mapM (fun (x : String × FactorSpec α) => do
      let filled ← fillList x.2.measurements [] d.nPeriods
      pure (x.1, filled)) = (m.factors.mapM (fun (x : String × FactorSpec α) => do
      let filled ← fillList x.2.measurements [] d.nPeriods
      pure (x.1, filled))).map (fun ys => List.map (fun (fm : String × List (List String)) => (ρ fm.1, List.map (fun ms => List.map ρ ms) fm.2)) ys) := by
    rw [← mapM_map_except]
    simp only [renameModel, List.mapM_map, Function.comp_def]
    congr 1
    funext x
    show (fillList (x.2.measurements.map (fun ms => ms.map ρ)) ([].map ρ) d.nPeriods >>= _) = _
    rw [fillList_map]
    cases fillList x.2.measurements [] d.nPeriods <;> rfl
  have h1' := h1
  dsimp only at h1' ⊢
  rw [h1']
  cases hms : m.factors.mapM (fun (x : String × FactorSpec α) => do
      let filled ← fillList x.2.measurements [] d.nPeriods
      pure (x.1, filled)) with
  | error e => rfl
  | ok ms =>
    show Except.ok _ = Except.ok _
    congr 1
    have hout : (processAnchoring (renameModel ρ m)).outcomes = (processAnchoring m).outcomes.map (fun fo => (ρ fo.1, ρ fo.2)) := by rw [anchoring_rename]; rfl
    have hanch : ∀ fo ∈ (processAnchoring m).outcomes, anchoringName (ρ fo.2) (ρ fo.1) = ρ (anchoringName fo.2 fo.1) := by
      intro fo hfo
      refine (hρ.anchors fo.1 fo.2 ?_).symm
      unfold processAnchoring at hfo
      cases ha : m.anchoring with
      | none => rw [ha] at hfo; simp at hfo
      | some a =>
        rw [ha] at hfo
        cases ho : a.outcomes with
        | none => simp [ho] at hfo
        | some os => exact ⟨a, ha, os, ho, by simpa [ho] using hfo⟩
    have hass : updateAssignments l'.periods (ms.map (fun fm => (ρ fm.1, fm.2.map (fun ms => ms.map ρ)))) (processAnchoring (renameModel ρ m)).outcomes =
        (updateAssignments l.periods ms (processAnchoring m).outcomes).map (fun s => { s with var := ρ s.var, factor := ρ s.factor }) := by
      unfold updateAssignments
      rw [hl.periods, hout, List.map_flatMap]
      refine List.flatMap_congr fun t _ => ?_
      rw [List.map_append]
      congr 1
      · rw [List.flatMap_map, List.map_flatMap]
        refine List.flatMap_congr fun fm _ => ?_
        dsimp only
        have : (fm.2.map (fun ms => ms.map ρ)).getD t [] = (fm.2.getD t []).map ρ := by
          simp only [List.getD_eq_getElem?_getD, List.getElem?_map]
          cases fm.2[t]? <;> rfl
        rw [this, List.map_map, List.map_map]
        rfl
      · rw [List.map_map, List.map_map]
        refine List.map_congr_left fun fo hfo => ?_
        simp only [Function.comp_def, hanch fo hfo]
    rw [hass, List.foldl_map]
    have : ∀ (ss : List UAssign) (rows : List URow), ss.foldl (fun rows s => setRow rows s.period (ρ s.var) (ρ s.factor) s.purpose) (rows.map (renameRow ρ)) =
        (ss.foldl (fun rows s => setRow rows s.period s.var s.factor s.purpose) rows).map (renameRow ρ) := by
      intro ss
      induction ss with
      | nil => intro rows; rfl
      | cons s ss ih => intro rows; simp only [List.foldl_cons, setRow_rename, ih]
    exact this _ []

/-- The number of parameters of a transition function does not depend on names. -/
theorem paramNames_length {s : String} {names : List String → List String} (h : builtinParamNames s = some names) {xs ys : List String} (hl : xs.length = ys.length) : (names xs).length = (names ys).length := by
  have hcomb : ∀ (xs ys : List String), xs.length = ys.length → (combinations2 xs).length = (combinations2 ys).length := by
    intro xs
    induction xs with
    | nil => intro ys h; cases ys with | nil => rfl | cons y ys => simp at h
    | cons x xs ih =>
      intro ys h
      cases ys with
      | nil => simp at h
      | cons y ys =>
        have := ih ys (by simpa using h)
        simp only [combinations2, List.length_append, List.length_map, this]
        simp at h
        rw [h]
  unfold builtinParamNames at h
  have hc := hcomb xs ys hl
  split_ifs at h <;> (obtain rfl := Option.some.inj h) <;>
    simp [paramsLinear, paramsTranslog, paramsLogCes, paramsConstant, paramsRobustTranslog, paramsLinearAndSquares, paramsLogCesGeneral, hl, hc]

theorem transitionNames_rename {spec : TransSpec} {xs ys : List String} (hl : xs.length = ys.length) {r r' : List String × String} (h : transitionNamesOf xs spec = .ok r) (h' : transitionNamesOf ys spec = .ok r') :
    r'.1.length = r.1.length ∧ r'.2 = r.2 := by
  unfold transitionNamesOf at h h'
  split at h
  · next s =>
    simp only at h'
    cases hb : builtinParamNames s with
    | none => rw [hb] at h; cases h
    | some names =>
      rw [hb] at h h'
      cases h
      cases h'
      exact ⟨paramNames_length hb hl.symm, rfl⟩
  · cases h
  · cases h
  · cases h; cases h'; exact ⟨rfl, rfl⟩

/-- What process_model makes of a model with other names. -/
structure ProcessedRenamed (ρ : Equiv.Perm String) (pm pm' : Processed α) : Prop where
  dimensions : pm'.dimensions = pm.dimensions
  labels : LabelsRenamed ρ pm.labels pm'.labels
  stagemap : pm'.labels.stagemap = pm.labels.stagemap
  stages : pm'.labels.stages = pm.labels.stages
  transitionNames : pm'.labels.transitionNames = pm.labels.transitionNames
  anchoring : pm'.anchoring = renameAnch ρ pm.anchoring
  options : pm'.estimationOptions = pm.estimationOptions
  updateInfo : pm'.updateInfo = pm.updateInfo.map (renameRow ρ)
  paramNames : List.Forall₂ (fun a b => b.1 = ρ a.1 ∧ b.2.length = a.2.length) pm.transitionInfo.paramNames pm'.transitionInfo.paramNames

variable [OfScientific α] [Neg α] [Zero α] [One α] [OfNat α 2] [DecidableEq α]

theorem processed_rename {m : ModelDict α} (hρ : KeepsReserved ρ m) {pm pm' : Processed α} (h : processModel m = .ok pm) (h' : processModel (renameModel ρ m) = .ok pm') : ProcessedRenamed ρ pm pm' := by
  obtain ⟨h1, _, h3, h4, h5, h6, h7, _⟩ := processModel_ok_iff.mp h
  obtain ⟨h1', _, h3', h4', h5', h6', h7', _⟩ := processModel_ok_iff.mp h'
  have hd : pm'.dimensions = pm.dimensions := by
    rw [dimensions_rename] at h1'
    exact Except.ok.inj (h1'.symm.trans h1)
  have hlab0 := labels_rename hρ.constant m pm.dimensions
  rw [hd] at h3' h4'
  have hall : (getLabels m pm.dimensions).allFactors.length = (getLabels (renameModel ρ m) pm.dimensions).allFactors.length := by rw [hlab0.allFactors, List.length_map]
  obtain ⟨_, _, hp, hf⟩ := getTransitionInfo_spec h3
  obtain ⟨_, _, hp', hf'⟩ := getTransitionInfo_spec h3'
  have hfac : (renameModel ρ m).factors = m.factors.map (fun fs => (ρ fs.1, renameFactor ρ fs.2)) := rfl
  rw [hfac, List.forall₂_map_left_iff] at hp' hf'
  have hnames : pm'.transitionInfo.functionNames.map Prod.snd = pm.transitionInfo.functionNames.map Prod.snd := by
    have : List.Forall₂ (fun (a b : String × String) => b.2 = a.2) pm.transitionInfo.functionNames pm'.transitionInfo.functionNames := by
      clear h3 h3' h4 h4'
      revert hf hf'
      generalize pm.transitionInfo.functionNames = xs
      generalize pm'.transitionInfo.functionNames = ys
      generalize m.factors = fs
      intro hf hf'
      induction hf generalizing ys with
      | nil => cases hf'; exact .nil
      | cons a _ ih =>
        cases hf' with
        | cons b c =>
          obtain ⟨_, ns, hn⟩ := a
          obtain ⟨_, ns', hn'⟩ := b
          exact .cons (transitionNames_rename hall hn hn').2 (ih _ c)
    have h2 := List.forall₂_map_left_iff (f := Prod.snd) (R := fun (a : String) (b : String × String) => b.2 = a) |>.mpr this
    have h3 := List.forall₂_map_right_iff (f := Prod.snd) (R := fun (a : String) (b : String) => b = a) |>.mpr h2
    have h4 := List.forall₂_eq_eq_eq ▸ h3.flip
    exact h4
  have hl : LabelsRenamed ρ pm.labels pm'.labels := by
    rw [h4, h4']
    exact ⟨hlab0.latentFactors, hlab0.observedFactors, hlab0.controls, hlab0.periods, hlab0.allFactors⟩
  refine ⟨hd, hl, ?_, ?_, ?_, ?_, ?_, ?_, ?_⟩
  · rw [h4, h4']; rfl
  · rw [h4, h4']; rfl
  · rw [h4, h4']; exact hnames
  · rw [h5, h5', anchoring_rename]
  · rw [h6, h6']; rfl
  · rw [hd, h5', updateInfo_rename hρ pm.dimensions hl, ← h5, h7] at h7'
    exact (Except.ok.inj h7').symm
  · clear h3 h3' h4 h4'
    revert hp hp'
    generalize pm.transitionInfo.paramNames = xs
    generalize pm'.transitionInfo.paramNames = ys
    generalize m.factors = fs
    intro hf hf'
    induction hf generalizing ys with
    | nil => cases hf'; exact .nil
    | cons a _ ih =>
      cases hf' with
      | cons b c =>
        obtain ⟨e, ns, hn⟩ := a
        obtain ⟨e', ns', hn'⟩ := b
        exact .cons ⟨by rw [e', e], (transitionNames_rename hall hn hn').1⟩ (ih _ c)

end
end Skill
