import Verif.Spec.RenamedOutput
import Verif.Lemmas.RenamedParsing
/- Debug data, filtered states and simulated data of a model with other names. -/
namespace Skill
open Spec
variable {β γ : Type} {ρ : Equiv.Perm String}

theorem find?_renameKeys (d : Dict β) (c : String) : Dict.get? (renameKeys ρ d) c = Dict.get? d (ρ.symm c) := by
  unfold Dict.get?
  induction d with
  | nil => rfl
  | cons a d ih =>
    simp only [renameKeys, List.map_cons, List.find?_cons] at ih ⊢
    by_cases h : a.1 = ρ.symm c
    · simp [h]
    · have h' : ρ a.1 ≠ c := fun e => h (by rw [← e]; simp)
      simp only [beq_eq_false_iff_ne.mpr h, beq_eq_false_iff_ne.mpr h']
      exact ih

/-! ### states -/

theorem filteredFrame_rename {n : ℕ} (hid : ρ "id" = "id") (hper : ρ "period" = "period") (fs : List String) (rows : List (FilteredRow n)) :
    filteredFrame (fs.map ρ) rows = renameStates ρ (filteredFrame fs rows) := by
  have e1 : ∀ c, ρ.symm c = "id" ↔ c = "id" := fun c => by rw [Equiv.symm_apply_eq, hid]
  have e2 : ∀ c, ρ.symm c = "period" ↔ c = "period" := fun c => by rw [Equiv.symm_apply_eq, hper]
  have e3 : ∀ c, (fs.map ρ).idxOf c = fs.idxOf (ρ.symm c) := fun c => by rw [← idxOf_map_perm ρ (ρ.symm c), Equiv.apply_symm_apply]
  simp only [filteredFrame, renameStates, List.map_append, List.map_cons, List.map_nil, hid, hper, List.map_map, Function.comp_def, e1, e2, e3]

theorem stateRanges_rename (frame : StatesFrame ℝ) (fs : List String) : createStateRanges (renameStates ρ frame) (fs.map ρ) = renameKeys ρ (createStateRanges frame fs) := by
  simp [createStateRanges, renameStates, renameKeys, Function.comp_def]

theorem anchorStates_rename (df : StatesFrame ℝ) (fs : List String) (scaling constants : List (List ℝ)) :
    anchorStates (renameStates ρ df) (fs.map ρ) scaling constants = (anchorStates df fs scaling constants).map (renameStates ρ) := by
  unfold anchorStates
  have hsel : (renameStates ρ df).rows.mapM (fun (r : Nat × (String → ℝ)) => do
      let s ← pyIndex scaling r.1
      let c ← pyIndex constants r.1
      pure (r, s, c)) = (df.rows.mapM (fun (r : Nat × (String → ℝ)) => do
      let s ← pyIndex scaling r.1
      let c ← pyIndex constants r.1
      pure (r, s, c))).map (List.map (fun (x : (Nat × (String → ℝ)) × List ℝ × List ℝ) => ((x.1.1, fun c => x.1.2 (ρ.symm c)), x.2))) := by
    rw [← mapM_map_except, renameStates, List.mapM_map]
    congr 1
    funext r
    simp only [Function.comp_def]
    cases pyIndex scaling r.1 <;> [rfl; cases pyIndex constants r.1 <;> rfl]
  rw [hsel, map_bind_except, bind_map_except]
  refine bind_congr fun sel => ?_
  have hall : ((fs.map ρ).all fun f => decide (f ∈ (renameStates ρ df).columns)) = fs.all fun f => decide (f ∈ df.columns) := by
    rw [List.all_map]
    refine congrArg (fun p => fs.all p) (funext fun f => ?_)
    simp [renameStates]
  rw [hall]
  by_cases hc : (fs.all fun f => decide (f ∈ df.columns)) = true
  · rw [if_pos hc, if_pos hc, bind_map_except, List.mapM_map]
    have hrow : ∀ x : (Nat × (String → ℝ)) × List ℝ × List ℝ,
        ((fs.map ρ).zipIdx.mapM (fun (f : String × Nat) => do
          let sf ← pyIndex x.2.1 f.2
          let cf ← pyIndex x.2.2 f.2
          pure (f.1, cf + x.1.2 (ρ.symm f.1) * sf))) = (fs.zipIdx.mapM (fun (f : String × Nat) => do
          let sf ← pyIndex x.2.1 f.2
          let cf ← pyIndex x.2.2 f.2
          pure (f.1, cf + x.1.2 f.1 * sf))).map (renameKeys ρ) := by
      intro x
      show _ = Except.map (List.map _) _
      rw [← mapM_map_except, List.zipIdx_map, List.mapM_map]
      congr 1
      funext f
      simp only [Function.comp_def, Prod.map, id, Equiv.symm_apply_apply]
      cases pyIndex x.2.1 f.2 <;> [rfl; cases pyIndex x.2.2 f.2 <;> rfl]
    have : ∀ (sel : List ((Nat × (String → ℝ)) × List ℝ × List ℝ)), List.mapM ((fun (x : (Nat × (String → ℝ)) × List ℝ × List ℝ) => (do
        let new ← (fs.map ρ).zipIdx.mapM (fun (f : String × Nat) => do
          let sf ← pyIndex x.2.1 f.2
          let cf ← pyIndex x.2.2 f.2
          pure (f.1, cf + x.1.2 f.1 * sf))
        pure (x.1.1, fun col => (Dict.get? new col).getD (x.1.2 col)) : Py (Nat × (String → ℝ)))) ∘ (fun (x : (Nat × (String → ℝ)) × List ℝ × List ℝ) => ((x.1.1, fun c => x.1.2 (ρ.symm c)), x.2))) sel =
        (List.mapM (fun (x : (Nat × (String → ℝ)) × List ℝ × List ℝ) => (do
        let new ← fs.zipIdx.mapM (fun (f : String × Nat) => do
          let sf ← pyIndex x.2.1 f.2
          let cf ← pyIndex x.2.2 f.2
          pure (f.1, cf + x.1.2 f.1 * sf))
        pure (x.1.1, fun col => (Dict.get? new col).getD (x.1.2 col)) : Py (Nat × (String → ℝ)))) sel).map (List.map (fun (r : Nat × (String → ℝ)) => (r.1, fun c => r.2 (ρ.symm c)))) := by
      intro sel
      rw [← mapM_map_except]
      congr 1
      funext x
      simp only [Function.comp_def]
      rw [hrow x, map_bind_except, bind_map_except]
      refine bind_congr fun new => ?_
      show Except.ok _ = Except.ok _
      simp only [find?_renameKeys]
    have h2 := this sel
    simp only [Function.comp_def] at h2
    simp only [Function.comp_def]
    erw [h2, map_bind_except]
    rfl
  · rw [if_neg hc, if_neg hc]
    rfl

/-! ### debug data -/

section
variable {nObs nMix n : ℕ}

theorem debugBlock_rename (row : URow) (data : Fin nObs → Fin nMix → β) : debugBlock (renameRow ρ row) data = (debugBlock row data).map (fun r => { r with measurement := ρ r.measurement }) := by
  simp [debugBlock, renameRow, Function.comp_def]

theorem blocks_rename (u : List URow) (xs : List (Fin nObs → Fin nMix → β)) :
    ((u.map (renameRow ρ)).zip xs).map (fun x => debugBlock x.1 x.2) = ((u.zip xs).map (fun x => debugBlock x.1 x.2)).map (List.map (fun r => { r with measurement := ρ r.measurement })) := by
  rw [List.zip_map_left, List.map_map, List.map_map]
  refine List.map_congr_left fun x _ => ?_
  simp [debugBlock_rename, Prod.map]

theorem postUpdate_rename (states : List (Fin nObs → Fin nMix → Fin n → ℝ)) (u : List URow) :
    createPostUpdateStates states (u.map (renameRow ρ)) = (createPostUpdateStates states u).map (List.map (fun r => { r with measurement := ρ r.measurement })) := by
  unfold createPostUpdateStates
  simp only [blocks_rename, List.map_eq_nil_iff (f := List.map _)]
  split
  · rfl
  · simp [Except.map, List.map_flatten]

theorem residuals_rename (xs : List (Fin nObs → Fin nMix → Option ℝ)) (u : List URow) :
    processResiduals xs (u.map (renameRow ρ)) = (processResiduals xs u).map (List.map (fun r => { r with measurement := ρ r.measurement })) := by
  unfold processResiduals
  simp only [blocks_rename, List.map_eq_nil_iff (f := List.map _)]
  split
  · rfl
  · split
    · rfl
    · simp [Except.map, List.map_flatten]

theorem contributions_rename (xs : List (Fin nObs → ℝ)) (u : List URow) :
    processAllContributions xs (u.map (renameRow ρ)) = (processAllContributions xs u).map (List.map (fun r => { r with measurement := ρ r.measurement })) := by
  unfold processAllContributions
  have : ((u.map (renameRow ρ)).zip xs).map (fun x => (List.finRange nObs).map (fun i => ({ contribution := x.2 i, measurement := x.1.var, period := x.1.period, id := i.val } : ContributionRow))) =
      ((u.zip xs).map (fun x => (List.finRange nObs).map (fun i => ({ contribution := x.2 i, measurement := x.1.var, period := x.1.period, id := i.val } : ContributionRow)))).map
        (List.map (fun r => { r with measurement := ρ r.measurement })) := by
    rw [List.zip_map_left, List.map_map, List.map_map]
    refine List.map_congr_left fun x _ => ?_
    simp [renameRow, Prod.map, Function.comp_def]
  simp only [this, List.map_eq_nil_iff (f := List.map _)]
  split
  · rfl
  · simp [Except.map, List.map_flatten]

theorem keepUpdates_rename (u : List URow) : keepUpdates (u.map (renameRow ρ)) = keepUpdates u := by
  unfold keepUpdates
  have hl : ∀ t, lastMeasurement (u.map (renameRow ρ)) t = (lastMeasurement u t).map ρ := by
    intro t
    unfold lastMeasurement
    rw [List.filter_map, List.getLast?_map]
    have e : (fun r : URow => decide (r.purpose = .measurement) && r.period == t) ∘ renameRow ρ = fun r => decide (r.purpose = .measurement) && r.period == t := rfl
    rw [e]
    cases List.getLast? (List.filter (fun r : URow => decide (r.purpose = .measurement) && r.period == t) u) <;> rfl
  congr 1
  rw [List.zipIdx_map, List.mapM_map]
  congr 1
  funext x
  simp only [Function.comp_def, Prod.map, hl, map_bind_except]
  have e : ∀ last, ((renameRow ρ x.1).var = ρ last) ↔ (x.1.var = last) := fun last => ρ.injective.eq_iff
  simp only [e]
  rfl

theorem filteredStates_rename (outs : List (StepOut nObs nMix n)) (u : List URow) : createFilteredStates outs (u.map (renameRow ρ)) = createFilteredStates outs u := by
  unfold createFilteredStates
  rw [keepUpdates_rename]

theorem processDebugData_rename (hid : ρ "id" = "id") (hper : ρ "period" = "period") (u : List URow) (fs : List String) (r : LoglikeResult nObs nMix n) :
    processDebugData (u.map (renameRow ρ)) (fs.map ρ) nObs nMix n r = (processDebugData u fs nObs nMix n r).map (renameDebug ρ) := by
  unfold processDebugData
  simp only [postUpdate_rename, filteredStates_rename, residuals_rename, contributions_rename, filteredFrame_rename hid hper, stateRanges_rename, map_bind_except, bind_map_except]
  refine bind_congr fun a1 => ?_
  refine bind_congr fun a2 => ?_
  refine bind_congr fun a3 => ?_
  refine bind_congr fun a4 => ?_
  refine bind_congr fun a5 => ?_
  show Except.ok _ = Except.ok _
  simp [renameDebug, Function.comp_def]

end

/-! ### simulated data -/

section
variable {nObs nMix n nT nObserved nC : ℕ} {θ : Type}

theorem applyPolicies_rename (factors : Fin n → String) (t : Nat) (draws : Nat → ℝ) (ps : List (Policy × Nat)) (x : Fin n → ℝ) :
    applyPolicies (fun f => ρ (factors f)) t draws (ps.map (Prod.map (renamePolicy ρ) id)) x = applyPolicies factors t draws ps x := by
  induction ps generalizing x with
  | nil => rfl
  | cons p ps ih =>
    obtain ⟨p, k⟩ := p
    simp only [List.map_cons, Prod.map, applyPolicies, renamePolicy, id] at ih ⊢
    have e : ∀ f, (ρ (factors f) == ρ p.factor) = (factors f == p.factor) := by
      intro f
      rw [Bool.eq_iff_iff]
      simp
    simp only [e, ih]

theorem simulateStates_rename (root : NormalRoot) (fixed : ScanFixed nObs nT n nObserved nC θ) (factors : Fin n → String) (policies : List Policy) (i : Fin nObs) (d : Draws nMix n) (k t : Nat) (x : Fin n → ℝ) :
    simulateStates root fixed (fun f => ρ (factors f)) (policies.map (renamePolicy ρ)) i d k t x = simulateStates root fixed.applied factors policies i d k t x := by
  induction k generalizing t x with
  | zero => rfl
  | succ k ih =>
    simp only [simulateStates, List.zipIdx_map, applyPolicies_rename, ih]
    rfl

theorem measurementsFromStates_rename (root : NormalRoot) (x : Fin n → ℝ) (controls : Fin nC → ℝ) (rows : List (UpdateParams n nC)) (z : Nat → ℝ) :
    measurementsFromStates root x controls (rows.map (fun r => { r with var := ρ r.var })) z = (measurementsFromStates root x controls rows z).map (fun y => (ρ y.1, y.2)) := by
  have key : ∀ (N : ℕ) (rows' : List (UpdateParams n nC)) (h : rows'.length = N) (e : Fin N → UpdateParams n nC) (he : ∀ k, rows'.get (k.cast h.symm) = e k),
      measurementsFromStates root x controls rows' z = (List.finRange N).map (fun k => ((e k).var, x ⬝ᵥ (e k).loadings + controls ⬝ᵥ (e k).controlParams +
        multivariateNormal root 0 (Matrix.diagonal (fun k => (e k).sd ^ 2)) (fun k : Fin N => z k.val) k)) := by
    intro N rows' h e he
    subst h
    obtain rfl : e = rows'.get := funext fun k => (he k).symm
    rfl
  rw [key rows.length _ (by simp) (fun k => { rows.get k with var := ρ (rows.get k).var }) (fun k => by simp), key rows.length rows rfl rows.get (fun k => rfl)]
  rw [List.map_map]
  rfl

theorem simulateMeasurements_rename (root : NormalRoot) (fixed : ScanFixed nObs nT n nObserved nC θ) (rows : List (UpdateParams n nC)) (i : Fin nObs) (d : Draws nMix n) (states : List (Fin n → ℝ)) :
    simulateMeasurements root fixed (rows.map (fun r => { r with var := ρ r.var })) i d states = (simulateMeasurements root fixed.applied rows i d states).map (List.map (List.map (fun y => (ρ y.1, y.2)))) := by
  unfold simulateMeasurements
  rw [← mapM_map_except]
  congr 1
  funext x
  simp only [List.filter_map, Function.comp_def, List.map_eq_nil_iff, measurementsFromStates_rename]
  split <;> rfl

/-- The simulated data of an individual with other names of the measurements. -/
def renameIndividual (ρ : Equiv.Perm String) (s : Simulated n) : Simulated n := { s with measurements := s.measurements.map (List.map (fun y => (ρ y.1, y.2))) }

theorem simulateIndividual_rename (root : NormalRoot) (fixed : ScanFixed nObs nT n nObserved nC θ) (rows : List (UpdateParams n nC)) (factors : Fin n → String) (policies : List Policy)
    (means : Fin nMix → Fin n → ℝ) (upperChols : Fin nMix → Matrix (Fin n) (Fin n) ℝ) (i : Fin nObs) (d : Draws nMix n) :
    simulateIndividual root fixed (rows.map (fun r => { r with var := ρ r.var })) (fun f => ρ (factors f)) (policies.map (renamePolicy ρ)) means upperChols i d =
      (simulateIndividual root fixed.applied rows factors policies means upperChols i d).map (renameIndividual ρ) := by
  unfold simulateIndividual
  simp only [simulateStates_rename, simulateMeasurements_rename, map_bind_except, bind_map_except]
  rfl

theorem renamePolicy_refl (p : Policy) : renamePolicy (Equiv.refl _) p = p := rfl

theorem simulateIndividual_applied (root : NormalRoot) (fixed : ScanFixed nObs nT n nObserved nC θ) (rows : List (UpdateParams n nC)) (factors : Fin n → String) (policies : List Policy)
    (means : Fin nMix → Fin n → ℝ) (upperChols : Fin nMix → Matrix (Fin n) (Fin n) ℝ) (i : Fin nObs) (d : Draws nMix n) :
    simulateIndividual root fixed rows factors policies means upperChols i d = simulateIndividual root fixed.applied rows factors policies means upperChols i d := by
  have h := simulateIndividual_rename (ρ := Equiv.refl _) root fixed rows factors policies means upperChols i d
  have e1 : rows.map (fun r => { r with var := (Equiv.refl String) r.var }) = rows := List.map_id _
  have e2 : policies.map (renamePolicy (Equiv.refl _)) = policies := List.map_id _
  rw [e1, e2] at h
  refine h.trans ?_
  cases simulateIndividual root fixed.applied rows factors policies means upperChols i d with
  | error e => rfl
  | ok s =>
    show Except.ok _ = Except.ok _
    congr 1
    unfold renameIndividual
    have : (List.map fun y : String × ℝ => ((Equiv.refl String) y.1, y.2)) = id := by
      funext ys
      exact List.map_id _
    rw [this, List.map_id]

/-- The simulation of all individuals, given all arrays. -/
noncomputable def simulateAll (root : NormalRoot) (nMix : ℕ) (factors : List String) (policies : List Policy) (draws : DatasetDraws) (fixed : ScanFixed nObs nT n nObserved nC θ) (traced : Py (List ℝ)) (carry : Carry nObs nMix n)
    (rows : List (UpdateParams n nC)) : Py (List (Simulated n)) :=
  if h : 0 < nObs then
    checkWeights nMix (carry.logWeights ⟨0, h⟩) >>= fun _ => traced >>= fun _ =>
    (List.finRange nObs).mapM (fun (i : Fin nObs) => drawsFor nMix n draws i.val >>= fun d =>
      simulateIndividual root fixed rows (fun f => factors.getD f "") policies (carry.states ⟨0, h⟩) (carry.upperChols ⟨0, h⟩) i d)
  else .error .valueError

theorem simulateArrays_eq (root : NormalRoot) (nObs nMix nT n nObserved nC : ℕ) (nan : ℝ) (fs factors : List String) (fns : Dict TransFn) (kappa : ℝ) (u : List URow) (p : Parsed ℝ)
    (controls observed : List (List (List (Option ℝ)))) (policies : List Policy) (draws : DatasetDraws) :
    simulateArrays root nObs nMix nT n nObserved nC nan fs factors fns kappa u p controls observed policies draws =
      (scanInputs nObs nT n nObserved nC nan fs fns kappa p controls observed).map (fun fixed => (fixed.applied, transitionFunction fs fns (fixed.transition 0) (List.replicate (n + nObserved) 0))) >>= fun ft =>
        initialCarry nObs nMix n p >>= fun carry => loopParams n nC u p >>= fun rows => simulateAll root nMix factors policies draws ft.1 ft.2 carry rows := by
  unfold simulateArrays simulateAll
  simp only [map_bind_except, ← simulateIndividual_applied]

theorem simulateAll_rename (root : NormalRoot) (factors : List String) (hn : n = factors.length) (policies : List Policy) (draws : DatasetDraws) (fixed : ScanFixed nObs nT n nObserved nC θ) (traced : Py (List ℝ)) (carry : Carry nObs nMix n)
    (rows : List (UpdateParams n nC)) : simulateAll root nMix (factors.map ρ) (policies.map (renamePolicy ρ)) draws fixed traced carry (rows.map (fun r => { r with var := ρ r.var })) =
      (simulateAll root nMix factors policies draws fixed traced carry rows).map (List.map (renameIndividual ρ)) := by
  have hf : (fun f : Fin n => (factors.map ρ).getD f "") = fun f : Fin n => ρ (factors.getD f "") := by
    funext f
    have hlt : f.val < factors.length := by have := f.isLt; omega
    simp [List.getD_eq_getElem?_getD, List.getElem?_eq_getElem hlt]
  unfold simulateAll
  rw [hf]
  split
  · simp only [bind_map_except]
    refine bind_congr fun _ => ?_
    refine bind_congr fun _ => ?_
    rw [← mapM_map_except]
    congr 1
    funext i
    rw [bind_map_except]
    refine bind_congr fun d => ?_
    rw [simulateIndividual_rename, ← simulateIndividual_applied]
  · rfl

theorem simulateArrays_rename {α : Type} (root : NormalRoot) (custom : String → CustomFn) (m : ModelDict α) (nObs nMix nT n nObserved nC : ℕ) (nan : ℝ) (fs factors : List String) (hn : n = factors.length) (kappa : ℝ) (u : List URow) (p : Parsed ℝ)
    (controls observed : List (List (List (Option ℝ)))) (policies : List Policy) (draws : DatasetDraws) :
    simulateArrays root nObs nMix nT n nObserved nC nan (fs.map ρ) (factors.map ρ) (transitionFns (renameCustom ρ custom) (renameModel ρ m)) kappa (u.map (renameRow ρ)) { p with transition := renameKeys ρ p.transition } controls observed
        (policies.map (renamePolicy ρ)) draws =
      (simulateArrays root nObs nMix nT n nObserved nC nan fs factors (transitionFns custom m) kappa u p controls observed policies draws).map (List.map (renameIndividual ρ)) := by
  rw [simulateArrays_eq, simulateArrays_eq, scanInputs_rename, loopParams_rename n nC u p]
  · simp only [bind_map_except, map_bind_except]
    refine bind_congr fun ft => ?_
    refine bind_congr fun carry => ?_
    refine bind_congr fun rows => ?_
    exact simulateAll_rename root factors hn policies draws _ _ carry rows
  all_goals rfl

theorem stateRows_rename (sims : List (Simulated n)) : stateRows (sims.map (renameIndividual ρ)) = stateRows sims := by
  unfold stateRows
  rw [List.zipIdx_map, List.flatMap_map]
  rfl

theorem measurementFrame_rename (u : List URow) (sims : List (Simulated n)) :
    measurementFrame (u.map (renameRow ρ)) (sims.map (renameIndividual ρ)) =
      { columns := (measurementFrame u sims).columns.map ρ, rows := (measurementFrame u sims).rows.map (fun r => { r with cell := fun c => r.cell (ρ.symm c) }) } := by
  unfold measurementFrame
  simp only [DataFrame.mk.injEq]
  constructor
  · rw [← List.dedup_map_of_injective ρ.injective, List.map_map, List.map_map]
    rfl
  · rw [List.zipIdx_map, List.flatMap_map, List.map_flatMap]
    refine List.flatMap_congr fun s _ => ?_
    simp only [Prod.map, renameIndividual, id, List.zipIdx_map, List.map_map, Function.comp_def]
    refine List.map_congr_left fun ys _ => ?_
    simp only [List.find?_map, Function.comp_def, Option.map_map]
    congr 1
    funext v
    have : ∀ y : String × ℝ, (ρ y.1 == v) = (y.1 == ρ.symm v) := by
      intro y
      rw [Bool.eq_iff_iff]
      simp [Equiv.eq_symm_apply]
    simp only [this]

end
end Skill
