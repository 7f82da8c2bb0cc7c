import Verif.Props.Utilities
/-
The updates of a model with fewer periods or measurements.
-/
namespace Skill
open Spec
variable {α : Type}

theorem setRow_filter (q : Nat × String → Bool) (rows : List URow) (s : UAssign) :
    (setRow rows s.period s.var s.factor s.purpose).filter (fun r => q r.key) = if q s.key then setRow (rows.filter (fun r => q r.key)) s.period s.var s.factor s.purpose else rows.filter (fun r => q r.key) := by
  induction rows with
  | nil =>
    unfold setRow
    cases hq : q s.key with
    | true => exact List.filter_cons_of_pos hq
    | false => exact List.filter_cons_of_neg (by rw [show q (URow.key ⟨s.period, s.var, [s.factor], s.purpose⟩) = q s.key from rfl, hq]; simp)
  | cons r rs ih =>
    rw [setRow]
    by_cases hr : r.period = s.period ∧ r.var = s.var
    · rw [if_pos hr]
      have hk : r.key = s.key := Prod.ext hr.1 hr.2
      cases hq : q s.key with
      | true =>
        rw [List.filter_cons_of_pos (by show q r.key = true; rw [hk, hq]), List.filter_cons_of_pos (by show q r.key = true; rw [hk, hq]), if_pos rfl, setRow, if_pos hr]
      | false =>
        rw [List.filter_cons_of_neg (by show ¬q r.key = true; rw [hk, hq]; simp), List.filter_cons_of_neg (by show ¬q r.key = true; rw [hk, hq]; simp), if_neg (by simp)]
    · rw [if_neg hr]
      cases hq : q r.key with
      | true =>
        rw [List.filter_cons_of_pos (by show q r.key = true; exact hq), List.filter_cons_of_pos (by show q r.key = true; exact hq), ih]
        split_ifs
        · rw [setRow, if_neg hr]
        · rfl
      | false =>
        rw [List.filter_cons_of_neg (by show ¬q r.key = true; rw [hq]; simp), List.filter_cons_of_neg (by show ¬q r.key = true; rw [hq]; simp), ih]

theorem buildRows_filter (q : Nat × String → Bool) (as : List UAssign) : buildRows (as.filter (fun s => q s.key)) = (buildRows as).filter (fun r => q r.key) := by
  induction as using List.reverseRecOn with
  | nil => rfl
  | append_singleton as s ih =>
    rw [buildRows_snoc, setRow_filter, List.filter_append, ← ih]
    cases hq : q s.key with
    | true => rw [List.filter_cons_of_pos (by show q s.key = true; exact hq), List.filter_nil, buildRows_snoc, if_pos rfl]
    | false => rw [List.filter_cons_of_neg (by rw [hq]; simp), List.filter_nil, List.append_nil, if_neg (by simp)]

section
variable [OfScientific α] [Neg α] [Zero α] [One α] [OfNat α 2] [DecidableEq α]

/-- The updates of a model with fewer periods are the first updates. -/
theorem updateInfo_reduce {m : ModelDict α} {pm pm' : Processed α} (hpm : processModel m = .ok pm) {n : ℕ} (hn : n ≤ pm.dimensions.nPeriods) (hpm' : processModel (reduceNPeriods m n) = .ok pm') :
    pm'.dimensions.nPeriods = n ∧ pm'.updateInfo = pm.updateInfo.filter (fun r => decide (r.period < n)) := by
  obtain ⟨N, hN, hd, hu⟩ := processModel_updateInfo hpm
  obtain ⟨N', hN', hd', hu'⟩ := processModel_updateInfo hpm'
  rw [hd] at hn
  obtain rfl := IsNPeriods.unique hN' (isNPeriods_reduce hN hn)
  refine ⟨hd', ?_⟩
  rw [hu, hu']
  have h := buildRows_filter (fun k => decide (k.1 < N')) (updateAssignments (List.range N) (m.factors.map (fun fs => (fs.1, fs.2.measurements))) (processAnchoring m).outcomes)
  refine Eq.trans ?_ h
  congr 1
  unfold updateAssignments
  rw [List.filter_flatMap]
  obtain ⟨d, rfl⟩ := Nat.exists_eq_add_of_le hn
  rw [List.range_add, List.flatMap_append]
  have h2 : ((List.range d).map (N' + ·)).flatMap (fun period => List.filter (fun s : UAssign => decide (s.key.1 < N'))
      ((m.factors.map (fun fs => (fs.1, fs.2.measurements))).flatMap (fun x => (x.2.getD period []).map (fun meas => (⟨period, meas, x.1, .measurement⟩ : UAssign))) ++
        (processAnchoring m).outcomes.map (fun x => (⟨period, anchoringName x.2 x.1, x.1, .anchoring⟩ : UAssign)))) = [] := by
    rw [List.flatMap_eq_nil_iff]
    intro p hp
    obtain ⟨j, _, rfl⟩ := List.mem_map.mp hp
    rw [List.filter_eq_nil_iff]
    intro s hs
    have : s.period = N' + j := by
      rcases List.mem_append.mp hs with hs | hs
      · obtain ⟨x, _, hx⟩ := List.mem_flatMap.mp hs
        obtain ⟨v, _, rfl⟩ := List.mem_map.mp hx
        rfl
      · obtain ⟨v, _, rfl⟩ := List.mem_map.mp hs
        rfl
    show ¬decide (s.period < N') = true
    rw [this, decide_eq_true_eq]
    omega
  refine Eq.trans ?_ (congrArg (_ ++ ·) h2).symm
  rw [List.append_nil]
  refine List.flatMap_congr (fun p hp => ?_)
  rw [List.mem_range] at hp
  rw [List.filter_eq_self.mpr]
  · show _ = _
    congr 1
    show ((m.factors.map (fun fs => (fs.1, reduceFactorPeriods N' fs.2))).map (fun fs => (fs.1, fs.2.measurements))).flatMap _ = _
    rw [List.map_map, List.flatMap_map, List.flatMap_map]
    refine List.flatMap_congr (fun fs _ => ?_)
    dsimp only [Function.comp]
    rw [reduceFactor_measurements, List.getD_eq_getElem?_getD, List.getD_eq_getElem?_getD, List.getElem?_take, if_pos hp]
  · intro s hs
    have : s.period = p := by
      rcases List.mem_append.mp hs with hs | hs
      · obtain ⟨x, _, hx⟩ := List.mem_flatMap.mp hs
        obtain ⟨v, _, rfl⟩ := List.mem_map.mp hx
        rfl
      · obtain ⟨v, _, rfl⟩ := List.mem_map.mp hs
        rfl
    show decide (s.period < N') = true
    rw [this, decide_eq_true_eq]
    exact hp

open Classical in
/-- The updates of a model without some measurements are the other updates. -/
theorem updateInfo_removeMeasurements {m : ModelDict α} (hc : CleanAnchoring m) {pm pm' : Processed α} (hpm : processModel m = .ok pm) {ms : List String} (hpm' : processModel (removeMeasurements ms m) = .ok pm') :
    pm'.dimensions.nPeriods = pm.dimensions.nPeriods ∧ pm'.updateInfo = pm.updateInfo.filter (fun r => decide (r.var ∈ ms → ∃ f, Anchors m r.var f)) := by
  obtain ⟨N, hN, hd, hu⟩ := processModel_updateInfo hpm
  obtain ⟨N', hN', hd', hu'⟩ := processModel_updateInfo hpm'
  have hNN : N' = N := IsNPeriods.unique hN' ((isNPeriods_congr (by
    show (m.factors.map _).map _ = _
    rw [List.map_map]
    exact List.map_congr_left (fun fs _ => by simp [removeFactorMeasurements])) : IsNPeriods (removeMeasurements ms m) N ↔ IsNPeriods m N).mpr hN)
  subst hNN
  refine ⟨by rw [hd, hd'], ?_⟩
  rw [hu, hu']
  have h := buildRows_filter (fun k => decide (k.2 ∈ ms → ∃ f, Anchors m k.2 f)) (updateAssignments (List.range N') (m.factors.map (fun fs => (fs.1, fs.2.measurements))) (processAnchoring m).outcomes)
  refine Eq.trans ?_ h
  congr 1
  unfold updateAssignments
  rw [List.filter_flatMap]
  refine List.flatMap_congr (fun p _ => ?_)
  rw [List.filter_append]
  congr 1
  · rw [List.filter_flatMap]
    show ((m.factors.map (fun fs => (fs.1, removeFactorMeasurements ms fs.2))).map (fun fs => (fs.1, fs.2.measurements))).flatMap _ = _
    rw [List.map_map, List.flatMap_map, List.flatMap_map]
    refine List.flatMap_congr (fun fs hfs => ?_)
    dsimp only [Function.comp, removeFactorMeasurements]
    rw [List.filter_map, List.getD_eq_getElem?_getD, List.getElem?_map, List.getD_eq_getElem?_getD]
    cases hx : fs.2.measurements[p]? with
    | none => rfl
    | some xs =>
      rw [Option.map_some, Option.getD_some, Option.getD_some]
      unfold removeFromList
      congr 1
      refine List.filter_congr (fun v hv => ?_)
      show decide (v ∉ ms) = decide (v ∈ ms → ∃ f, Anchors m v f)
      rw [decide_eq_decide]
      refine ⟨fun h h' => absurd h' h, fun h h' => ?_⟩
      obtain ⟨f, hf⟩ := h h'
      exact hc.notMeasured v f p fs.1 hf ⟨fs.2, hfs, xs, hx, hv⟩
  · symm
    refine List.filter_eq_self.mpr (fun s hs => ?_)
    obtain ⟨v, hv, rfl⟩ := List.mem_map.mp hs
    show decide _ = true
    rw [decide_eq_true_eq]
    intro _
    exact ⟨v.1, v.2, mem_outcomes_iff.mp hv, rfl⟩

end

end Skill
