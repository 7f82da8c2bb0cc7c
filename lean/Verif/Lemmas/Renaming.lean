import Verif.Spec.Renaming
import Verif.Lemmas.ProcessModel
/- The parts of the code applied to a model and a dataset with other names. -/
namespace Skill
open Spec
variable {α V β : Type}

section
variable (ρ : Equiv.Perm String)

theorem mem_map_perm (x : String) (xs : List String) : ρ x ∈ xs.map ρ ↔ x ∈ xs := List.mem_map_of_injective ρ.injective

theorem idxOf_map_perm (x : String) (xs : List String) : (xs.map ρ).idxOf (ρ x) = xs.idxOf x := by
  induction xs with
  | nil => rfl
  | cons y ys ih => simp only [List.map_cons, List.idxOf_cons, ih]; congr 1; rw [Bool.eq_iff_iff]; simp

theorem getItem_renameKeys (d : Dict β) (k : String) : Dict.getItem (renameKeys ρ d) (ρ k) = Dict.getItem d k := by
  unfold Dict.getItem Dict.get?
  congr 1
  induction d with
  | nil => rfl
  | cons a d ih =>
    simp only [renameKeys, List.map_cons, List.find?_cons] at ih ⊢
    by_cases h : a.1 = k
    · simp [h]
    · have h' : ρ a.1 ≠ ρ k := fun e => h (ρ.injective e)
      simp only [beq_eq_false_iff_ne.mpr h, beq_eq_false_iff_ne.mpr h']
      exact ih

/-! ### the data -/

/-- The processed DataFrame with other names. -/
def renameFrame (df : DataFrame V) : DataFrame V := { columns := df.columns.map ρ, rows := df.rows.map (fun r => { r with cell := fun c => r.cell (ρ.symm c) }) }

theorem preProcess_rename (df : LongData V) (periods : List Nat) : preProcessData (renameData ρ df) periods = (preProcessData df periods).map (renameFrame ρ) := by
  unfold preProcessData
  simp only [renameData, List.map_map, Function.comp_def, List.any_map, List.find?_map]
  split
  · simp only [Except.map, renameFrame, List.map_flatMap, List.map_map, Function.comp_def]
    congr 2
    refine List.flatMap_congr fun i _ => List.map_congr_left fun t _ => ?_
    congr 1
    cases List.find? (fun r => levelCode df.idLevel r.id == i && levelCode df.periodLevel r.period == t) df.rows <;> rfl
  · rfl

theorem assign_rename (df : DataFrame V) (new : String) (value value' : DataRow V → Option V) (hv : ∀ r : DataRow V, value' { r with cell := fun c => r.cell (ρ.symm c) } = value r) :
    assignColumn (renameFrame ρ df) (ρ new) value' = renameFrame ρ (assignColumn df new value) := by
  unfold assignColumn renameFrame
  simp only [mem_map_perm, List.map_map, Function.comp_def, hv, DataFrame.mk.injEq]
  refine ⟨by split <;> simp, List.map_congr_left fun r _ => ?_⟩
  congr 1
  funext c
  by_cases h : c = ρ new
  · simp [h]
  · rw [Function.update_of_ne h, Function.update_of_ne (fun e => h (by rw [← e]; simp))]

/-- The anchoring information with other names. -/
def renameAnch (a : AnchInfo) : AnchInfo := { a with outcomes := a.outcomes.map (fun fo => (ρ fo.1, ρ fo.2)), factors := a.factors.map ρ }

theorem copies_rename (df : DataFrame V) (a : AnchInfo) (h : ∀ f o, Dict.getItem a.outcomes f = .ok o → ρ (anchoringName o f) = anchoringName (ρ o) (ρ f)) :
    addCopiesOfAnchoringOutcome (renameFrame ρ df) (renameAnch ρ a) = (addCopiesOfAnchoringOutcome df a).map (renameFrame ρ) := by
  unfold addCopiesOfAnchoringOutcome
  have hget : ∀ f, Dict.getItem (renameAnch ρ a).outcomes (ρ f) = (Dict.getItem a.outcomes f).map ρ := by
    intro f
    have h1 : (renameAnch ρ a).outcomes = renameKeys ρ (a.outcomes.map (fun fo => (fo.1, ρ fo.2))) := by simp [renameAnch, renameKeys, Function.comp_def]
    rw [h1, getItem_renameKeys]
    unfold Dict.getItem Dict.get?
    simp only [List.find?_map, Function.comp_def]
    cases List.find? (fun x => x.1 == f) a.outcomes <;> rfl
  show List.foldlM _ _ (a.factors.map ρ) = _
  generalize a.factors = fs
  induction fs generalizing df with
  | nil => rfl
  | cons f fs ih =>
    simp only [List.map_cons, List.foldlM_cons, hget]
    cases hg : Dict.getItem a.outcomes f with
    | error e => rfl
    | ok o =>
      show (if ρ o ∈ (renameFrame ρ df).columns then _ else _) >>= _ = Except.map _ ((if o ∈ df.columns then _ else _) >>= _)
      have hm : ρ o ∈ (renameFrame ρ df).columns ↔ o ∈ df.columns := mem_map_perm ρ o _
      by_cases ho : o ∈ df.columns
      · rw [if_pos ho, if_pos (hm.mpr ho), ← h f o hg]
        show List.foldlM _ _ (fs.map ρ) = _
        rw [assign_rename ρ df (anchoringName o f) (fun r => r.cell o) (fun r => r.cell (ρ o)) (fun r => by simp)]
        exact ih _
      · rw [if_neg ho, if_neg (fun e => ho (hm.mp e))]
        rfl

/-- A row of update_info with other names. -/
def renameRow (r : URow) : URow := { r with var := ρ r.var, trueCols := r.trueCols.map ρ }

theorem periodMeasurements_rename (u : List URow) (t : Nat) : getPeriodMeasurements (u.map (renameRow ρ)) t = (getPeriodMeasurements u t).map ρ := by
  unfold getPeriodMeasurements
  simp only [List.filter_map, List.map_map, Function.comp_def, renameRow]
  rfl

theorem periodData_rename (df : DataFrame V) (t : Nat) : periodData (renameFrame ρ df) t = (periodData df t).map (fun r => { r with cell := fun c => r.cell (ρ.symm c) }) := by
  unfold periodData renameFrame
  simp only [List.filter_map, Function.comp_def]

/-- The labels that process_data reads, with other names. -/
structure LabelsRenamed (l l' : Labels) : Prop where
  latentFactors : l'.latentFactors = l.latentFactors.map ρ
  observedFactors : l'.observedFactors = l.observedFactors.map ρ
  controls : l'.controls = l.controls.map ρ
  periods : l'.periods = l.periods
  allFactors : l'.allFactors = l.allFactors.map ρ

variable {ρ}

theorem dataReport_rename [DecidableEq V] (df : DataFrame V) (u : List URow) {l l' : Labels} (hl : LabelsRenamed ρ l l') (purpose : DataPurpose) :
    dataReport (renameFrame ρ df) (u.map (renameRow ρ)) l' purpose = (dataReport df u l purpose).map (fun x => (x.1, ρ x.2)) := by
  have hc : (renameFrame ρ df).columns = df.columns.map ρ := rfl
  unfold dataReport
  simp only [hl.periods, hl.controls, hl.observedFactors, periodMeasurements_rename, periodData_rename, hc, List.map_flatMap, List.map_append, List.filter_map, List.map_map, Function.comp_def, mem_map_perm,
    List.all_map, List.any_map, Equiv.symm_apply_apply]
  refine List.flatMap_congr fun t _ => ?_
  congr 2
  split <;> simp [Function.comp_def]

theorem checkData_rename [DecidableEq V] (df : DataFrame V) (u : List URow) {l l' : Labels} (hl : LabelsRenamed ρ l l') (purpose : DataPurpose) :
    checkData (renameFrame ρ df) (u.map (renameRow ρ)) l' purpose = checkData df u l purpose := by
  unfold checkData
  rw [dataReport_rename df u hl]
  simp

theorem missings_rename (df : DataFrame V) (u : List URow) (controls : List String) :
    handleControlsWithMissings (renameFrame ρ df) (controls.map ρ) (u.map (renameRow ρ)) = (handleControlsWithMissings df controls u).map (renameFrame ρ) := by
  have hc : (renameFrame ρ df).columns = df.columns.map ρ := rfl
  unfold handleControlsWithMissings
  simp only [periodMeasurements_rename, ← List.map_append, List.all_map, hc, Function.comp_def, mem_map_perm, List.any_map]
  have hp : ∀ row : URow, (renameRow ρ row).period = row.period := fun _ => rfl
  simp only [hp]
  split
  · simp only [Except.map, renameFrame, List.map_map, Function.comp_def]
    congr 2
    refine List.map_congr_left fun r _ => ?_
    have : isProblem (controls.map ρ) ((getPeriodMeasurements u r.period).map ρ) { r with cell := fun c => r.cell (ρ.symm c) } = isProblem controls (getPeriodMeasurements u r.period) r := by
      unfold isProblem
      simp [List.any_map, Function.comp_def]
    rw [this]
    split <;> rfl
  · rfl

theorem array_rename (df : DataFrame V) (periods : List Nat) (vars : List String) : generateArray (renameFrame ρ df) periods (vars.map ρ) = generateArray df periods vars := by
  have hc : (renameFrame ρ df).columns = df.columns.map ρ := rfl
  unfold generateArray
  simp only [periodData_rename, hc, List.all_map, Function.comp_def, mem_map_perm, List.map_map, Equiv.symm_apply_apply]

theorem measurements_rename (df : DataFrame V) (u : List URow) (purpose : DataPurpose) : measurementsFor purpose (renameFrame ρ df) (u.map (renameRow ρ)) = measurementsFor purpose df u := by
  have hc : (renameFrame ρ df).columns = df.columns.map ρ := rfl
  unfold measurementsFor generateMeasurementsArray columnOf
  simp only [periodData_rename, hc, List.mapM_map, Function.comp_def, mem_map_perm, List.map_map, Equiv.symm_apply_apply, renameRow]

/-- The data arrays are the same. -/
theorem processData_rename [DecidableEq V] [One V] (df : LongData V) (u : List URow) {l l' : Labels} (hl : LabelsRenamed ρ l l') (a : AnchInfo) (purpose : DataPurpose) (hconst : ρ "constant" = "constant")
    (h : ∀ f o, Dict.getItem a.outcomes f = .ok o → ρ (anchoringName o f) = anchoringName (ρ o) (ρ f)) :
    processData (renameData ρ df) l' (u.map (renameRow ρ)) (renameAnch ρ a) purpose = processData df l u a purpose := by
  unfold processData
  rw [preProcess_rename, hl.periods, hl.controls, hl.observedFactors]
  cases preProcessData df l.periods with
  | error e => rfl
  | ok df1 =>
    show (addCopiesOfAnchoringOutcome (assignColumn (renameFrame ρ df1) "constant" _) _ >>= _) = (addCopiesOfAnchoringOutcome (assignColumn df1 "constant" _) _ >>= _)
    have h1 := assign_rename ρ df1 "constant" (fun _ => some (1 : V)) (fun _ => some 1) (fun _ => rfl)
    rw [hconst] at h1
    rw [h1, copies_rename ρ _ a h]
    cases addCopiesOfAnchoringOutcome (assignColumn df1 "constant" fun _ => some 1) a with
    | error e => rfl
    | ok df2 =>
      show (checkData (renameFrame ρ df2) _ _ _ >>= _) = (checkData df2 _ _ _ >>= _)
      rw [checkData_rename df2 u hl]
      cases checkData df2 u l purpose with
      | error e => rfl
      | ok _ =>
        show (handleControlsWithMissings (renameFrame ρ df2) _ _ >>= _) = (handleControlsWithMissings df2 _ _ >>= _)
        rw [missings_rename]
        cases handleControlsWithMissings df2 l.controls u with
        | error e => rfl
        | ok df3 =>
          show (measurementsFor purpose (renameFrame ρ df3) _ >>= fun meas => generateArray (renameFrame ρ df3) _ _ >>= fun c => generateArray (renameFrame ρ df3) _ _ >>= _) = (measurementsFor purpose df3 u >>= fun meas => generateArray df3 _ _ >>= fun c => generateArray df3 _ _ >>= _)
          rw [measurements_rename, array_rename, array_rename]

end
end Skill
