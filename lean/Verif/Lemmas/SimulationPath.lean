import Verif.Spec.SimulationLaw
import Verif.Props.Simulate
import Verif.Props.PredictSteps
/-
Both simulations, path by path: the one of the state space model that belongs to the loop of the filter, and the one of simulate_dataset.
-/
namespace Skill
open Matrix Spec
variable {nObs nMix n nT nObserved nC : ℕ} {θ : Type}

/-- The state before step k. -/
def stateAt (steps : List (Step n)) (x : Fin n → ℝ) (η : Nat → Fin n → ℝ) : Nat → Fin n → ℝ
  | 0 => x
  | k + 1 => match steps[k]? with
    | some s => s.next (stateAt steps x η k) (η k)
    | none => stateAt steps x η k

theorem stateAt_cons (s : Step n) (steps : List (Step n)) (x : Fin n → ℝ) (η : Nat → Fin n → ℝ) (k : Nat) :
    stateAt (s :: steps) x η (k + 1) = stateAt steps (s.next x (η 0)) (fun j => η (j + 1)) k := by
  induction k with
  | zero => rfl
  | succ k ih =>
    rw [stateAt, ih, List.getElem?_cons_succ]
    rfl

theorem simulate_get (steps : List (Step n)) (x : Fin n → ℝ) (d : Fin steps.length → ℝ × (Fin n → ℝ)) (η : Nat → Fin n → ℝ) (hη : ∀ k : Fin steps.length, η k = (d k).2) (k : Fin steps.length) :
    simulate steps x d k = if (steps.get k).observed then (steps.get k).h ⬝ᵥ stateAt steps x η k + (steps.get k).c + (steps.get k).sd * (d k).1 else 0 := by
  induction steps generalizing x η with
  | nil => exact k.elim0
  | cons s ss ih =>
    refine Fin.cases ?_ (fun j => ?_) k
    · rfl
    · have := ih (s.next x (d 0).2) (fun k => d k.succ) (fun j => η (j + 1)) (fun k => hη k.succ) j
      have h0 : η 0 = (d (0 : Fin (ss.length + 1))).2 := hη (0 : Fin (ss.length + 1))
      rw [simulate, Fin.cons_succ, this, Fin.val_succ, stateAt_cons, h0]
      rfl

/-- The states of all periods, for given noise. -/
noncomputable def pathStates (fixed : ScanFixed nObs nT n nObserved nC θ) (i : Fin nObs) (x : Fin n → ℝ) (w : Nat → Fin n → ℝ) : Nat → Fin n → ℝ
  | 0 => x
  | t + 1 => fun f => unanchoredTransition fixed i t (pathStates fixed i x w t) f + w t f

theorem Spec.StatesFollow.path {root : NormalRoot} {fixed : ScanFixed nObs nT n nObserved nC θ} {factors : Fin n → String} {i : Fin nObs} {d : Draws nMix n}
    {start : Fin n → ℝ} {xs : List (Fin n → ℝ)} (h : StatesFollow root fixed factors [] i d start xs) {t : Nat} (ht : t < nT + 2) :
    xs[t]? = some (pathStates fixed i start (fun t => transitionNoise root fixed t (d.shocks t)) t) := by
  induction t with
  | zero =>
    obtain ⟨x, h1, h2⟩ := h.first
    rw [h1]
    congr 1
    funext f
    rw [h2 f]
    simp [policyEffect, pathStates]
  | succ t ih =>
    obtain ⟨y, hy⟩ := h.get ht
    rw [hy]
    congr 1
    funext f
    rw [h.next t _ y (ih (by omega)) hy f]
    simp [policyEffect, pathStates]

/-- A name that occurs once is found. -/
theorem find_of_unique {l : List (String × ℝ)} {v : String} {y : ℝ} {k : Nat} (hk : l[k]? = some (v, y)) (hu : (l.map Prod.fst).Nodup) :
    l.find? (fun y => y.1 == v) = some (v, y) := by
  induction l generalizing k with
  | nil => simp at hk
  | cons a l ih =>
    rw [List.map_cons, List.nodup_cons] at hu
    cases k with
    | zero =>
      simp only [List.getElem?_cons_zero, Option.some.injEq] at hk
      rw [hk, List.find?_cons_of_pos (by simp)]
    | succ k =>
      rw [List.getElem?_cons_succ] at hk
      rw [List.find?_cons_of_neg, ih hk hu.2]
      intro hc
      have : a.1 = v := by simpa using hc
      exact hu.1 (this ▸ List.mem_map.mpr ⟨_, List.mem_of_getElem? hk, rfl⟩)

/-- The simulated value of row j of period t. -/
theorem simulated_value (root : NormalRoot) {fixed : ScanFixed nObs nT n nObserved nC θ} {rows : List (UpdateParams n nC)} {factors : Fin n → String} (hinj : Function.Injective factors)
    {means : Fin nMix → Fin n → ℝ} {upperChols : Fin nMix → Matrix (Fin n) (Fin n) ℝ} {i : Fin nObs} {d : Draws nMix n} {s : Simulated n}
    (h : simulateIndividual root fixed rows factors [] means upperChols i d = .ok s) {t : Nat} (ht : t < nT + 2)
    (hu : ((rows.filter (fun r => r.period == t)).map (fun r => r.var)).Nodup) (j : Fin (rows.filter (fun r => r.period == t)).length) :
    valueOf s t ((rows.filter (fun r => r.period == t)).get j).var =
      ((rows.filter (fun r => r.period == t)).get j).loadings ⬝ᵥ
        pathStates fixed i (means d.element + root n ((upperChols d.element)ᵀ * upperChols d.element) *ᵥ d.start) (fun t => transitionNoise root fixed t (d.shocks t)) t +
      fixed.controls (jaxIndex (nT + 1) t) i ⬝ᵥ ((rows.filter (fun r => r.period == t)).get j).controlParams +
      (root _ (diagonal (fun k => ((rows.filter (fun r => r.period == t)).get k).sd ^ 2)) *ᵥ (fun j => d.errors t j.val)) j := by
  obtain ⟨h1, _, h2⟩ := C56_simulation root hinj h
  obtain ⟨ys, hys, hl, hv⟩ := h2 t _ (h1.path ht)
  unfold valueOf
  rw [List.getD_eq_getElem?_getD, hys, Option.getD_some, find_of_unique (hv j)]
  · rfl
  · have : ys.map Prod.fst = (rows.filter (fun r => r.period == t)).map (fun r => r.var) := by
      apply List.ext_getElem?
      intro k
      by_cases hk : k < (rows.filter (fun r => r.period == t)).length
      · rw [List.getElem?_map, List.getElem?_map, hv ⟨k, hk⟩, List.getElem?_eq_getElem hk]
        rfl
      · rw [List.getElem?_eq_none (by simp; omega), List.getElem?_eq_none (by simpa using hk)]
    rw [this]
    exact hu

/-! ### the steps of the filter -/

theorem isPredictIteration_get (ps : List Nat) {k p : Nat} (hk : ps[k]? = some p) : (isPredictIteration ps)[k]? = some (decide (ps[k + 1]? = some (p + 1))) := by
  have h := isPredictIteration_iff ps k p hk
  have hlt : k < (isPredictIteration ps).length := by
    rw [isPredictIteration_length]
    exact (List.getElem?_eq_some_iff.mp hk).1
  rw [List.getElem?_eq_getElem hlt, Option.some.injEq] at h
  rw [List.getElem?_eq_getElem hlt]
  congr 1
  rw [Bool.eq_iff_iff, h, decide_eq_true_iff]

theorem loopArgs_length (L : Nat) (rows : List (UpdateParams n nC)) {data : List (Fin nObs → Option ℝ)} (hd : data.length = rows.length) : (loopArgs L rows data).length = rows.length := by
  simp [loopArgs, iterationToPeriod, isPredictIteration_length, hd]

theorem loopArgs_get (L : Nat) {rows : List (UpdateParams n nC)} {data : List (Fin nObs → Option ℝ)} {k : Nat} {r : UpdateParams n nC} {y : Fin nObs → Option ℝ} (hr : rows[k]? = some r)
    (hy : data[k]? = some y) :
    (loopArgs L rows data)[k]? = some { period := if r.period = L then -1 else (r.period : Int), loadings := r.loadings, controlParams := r.controlParams, measSd := r.sd, measurements := y
                                        isMeasurement := r.isMeasurement, isPredict := decide ((rows[k + 1]?).map (fun r => r.period) = some (r.period + 1)) } := by
  have hp : (rows.map (fun r => r.period))[k]? = some r.period := by rw [List.getElem?_map, hr]; rfl
  have h1 : (iterationToPeriod L (rows.map (fun r => r.period)))[k]? = some (if r.period = L then -1 else (r.period : Int)) := by
    rw [iterationToPeriod, List.getElem?_map, hp]; rfl
  have h2 := isPredictIteration_get _ hp
  rw [List.getElem?_map] at h2
  unfold loopArgs
  have h3 : (rows.zip data)[k]? = some (r, y) := List.getElem?_zip_eq_some.mpr ⟨hr, hy⟩
  have h4 := List.getElem?_zip_eq_some (z := (_, _)).mpr ⟨h1, h2⟩
  have h5 := List.getElem?_zip_eq_some (z := (_, _)).mpr ⟨h3, h4⟩
  rw [List.getElem?_map, h5]
  rfl

/-- The rows of the parameters, as made from update_info when each period has updates: sorted by period, with unique keys. -/
structure Spec.GoodRows (nT : ℕ) (rows : List (UpdateParams n nC)) : Prop where
  sorted : rows.Pairwise (fun r r' => r.period ≤ r'.period)
  unique : (rows.map (fun r => (r.period, r.var))).Nodup
  range : ∀ r ∈ rows, r.period ≤ nT + 1
  all : ∀ t ≤ nT + 1, ∃ r ∈ rows, r.period = t

theorem Spec.GoodRows.mono {rows : List (UpdateParams n nC)} (h : GoodRows nT rows) {j k : Nat} {r r' : UpdateParams n nC} (hjk : j ≤ k) (hj : rows[j]? = some r) (hk : rows[k]? = some r') :
    r.period ≤ r'.period := by
  obtain ⟨hj', rfl⟩ := List.getElem?_eq_some_iff.mp hj
  obtain ⟨hk', rfl⟩ := List.getElem?_eq_some_iff.mp hk
  rcases Nat.eq_or_lt_of_le hjk with rfl | hlt
  · exact le_rfl
  · exact List.pairwise_iff_getElem.mp h.sorted j k hj' hk' hlt

theorem Spec.GoodRows.first {rows : List (UpdateParams n nC)} (h : GoodRows nT rows) {r : UpdateParams n nC} (hr : rows[0]? = some r) : r.period = 0 := by
  obtain ⟨r', hr', h0⟩ := h.all 0 (Nat.zero_le _)
  obtain ⟨k, hk⟩ := List.getElem?_of_mem hr'
  have := h.mono (Nat.zero_le k) hr hk
  omega

theorem Spec.GoodRows.step {rows : List (UpdateParams n nC)} (h : GoodRows nT rows) {k : Nat} {r r' : UpdateParams n nC} (hr : rows[k]? = some r) (hr' : rows[k + 1]? = some r') :
    r'.period = r.period ∨ r'.period = r.period + 1 := by
  have h1 := h.mono (Nat.le_succ k) hr hr'
  by_contra hc
  push Not at hc
  obtain ⟨q, hq, hqp⟩ := h.all (r.period + 1) (by have := h.range r' (List.mem_of_getElem? hr'); omega)
  obtain ⟨j, hj⟩ := List.getElem?_of_mem hq
  rcases Nat.lt_or_ge k j with hlt | hge
  · have := h.mono (Nat.succ_le_of_lt hlt) hr' hj
    omega
  · have := h.mono hge hj hr
    omega

/-- The states of the state space model at the rows of a period are the states of the period. -/
theorem stateAt_eq {fixed : ScanFixed nObs nT n nObserved nC θ} {rows : List (UpdateParams n nC)} (h : GoodRows nT rows) {data : List (Fin nObs → Option ℝ)} (hd : data.length = rows.length) (i : Fin nObs)
    (x : Fin n → ℝ) (η w : Nat → Fin n → ℝ) {last : Nat → Nat}
    (hlast : ∀ t ≤ nT, ∃ r, rows[last t]? = some r ∧ r.period = t ∧ ∀ (j : Nat) r', last t < j → rows[j]? = some r' → r'.period ≠ t)
    (hw : ∀ t ≤ nT, ∀ f, w t f = fixed.shockSds (jaxIndex nT t) f * η (last t) f) {k : Nat} {r : UpdateParams n nC} (hr : rows[k]? = some r) :
    stateAt ((loopArgs (nT + 1) rows data).map (stepOf fixed i)) x η k = pathStates fixed i x w r.period := by
  induction k generalizing r with
  | zero => rw [h.first hr]; rfl
  | succ k ih =>
    have hk1 := (List.getElem?_eq_some_iff.mp hr).1
    obtain ⟨p, hp⟩ : ∃ p, rows[k]? = some p := ⟨_, List.getElem?_eq_getElem (by omega)⟩
    obtain ⟨y, hy⟩ : ∃ y, data[k]? = some y := ⟨_, List.getElem?_eq_getElem (by omega)⟩
    rw [stateAt, List.getElem?_map, loopArgs_get _ hp hy]
    dsimp only [Option.map_some]
    rw [ih hp, hr]
    rcases h.step hp hr with he | he
    · rw [he]
      simp [stepOf, Step.next, he]
    · have hle := h.range r (List.mem_of_getElem? hr)
      have hkl : last p.period = k := by
        obtain ⟨q, hq, hqp, hqm⟩ := hlast p.period (by omega)
        rcases Nat.lt_trichotomy (last p.period) k with hlt | heq | hgt
        · exact absurd rfl (hqm k p hlt hp)
        · exact heq
        · have := h.mono (Nat.succ_le_of_lt hgt) hr hq
          omega
      rw [he]
      have hne : p.period ≠ nT + 1 := by omega
      funext f
      simp only [stepOf, Step.next, Option.map_some, he, decide_true, if_true, if_neg hne, pathStates]
      rw [hw p.period (by omega) f, hkl]

theorem jaxIndex_last (k : ℕ) : jaxIndex k (-1) = jaxIndex k (k : Int) := by
  unfold jaxIndex
  ext
  simp
  omega

/-- The data of the state space model that belongs to the loop of the filter. -/
theorem simulate_rows {fixed : ScanFixed nObs nT n nObserved nC θ} {rows : List (UpdateParams n nC)} (h : GoodRows nT rows) {data : List (Fin nObs → Option ℝ)} (hd : data.length = rows.length) (i : Fin nObs)
    (x : Fin n → ℝ) (d : Fin ((loopArgs (nT + 1) rows data).map (stepOf fixed i)).length → ℝ × (Fin n → ℝ)) (η w : Nat → Fin n → ℝ) (hη : ∀ k, η k.val = (d k).2) {last : Nat → Nat}
    (hlast : ∀ t ≤ nT, ∃ r, rows[last t]? = some r ∧ r.period = t ∧ ∀ (j : Nat) r', last t < j → rows[j]? = some r' → r'.period ≠ t)
    (hw : ∀ t ≤ nT, ∀ f, w t f = fixed.shockSds (jaxIndex nT t) f * η (last t) f) (k : Fin ((loopArgs (nT + 1) rows data).map (stepOf fixed i)).length)
    {r : UpdateParams n nC} (hr : rows[k.val]? = some r) {y : Fin nObs → Option ℝ} (hy : data[k.val]? = some y) :
    simulate ((loopArgs (nT + 1) rows data).map (stepOf fixed i)) x d k = if (y i).isSome then
      r.loadings ⬝ᵥ pathStates fixed i x w r.period + fixed.controls (jaxIndex (nT + 1) r.period) i ⬝ᵥ r.controlParams + r.sd * (d k).1 else 0 := by
  have hget : ((loopArgs (nT + 1) rows data).map (stepOf fixed i)).get k = stepOf fixed i
      { period := if r.period = nT + 1 then -1 else (r.period : Int), loadings := r.loadings, controlParams := r.controlParams, measSd := r.sd, measurements := y
        isMeasurement := r.isMeasurement, isPredict := decide ((rows[k.val + 1]?).map (fun r => r.period) = some (r.period + 1)) } := by
    have := loopArgs_get (nT + 1) hr hy
    apply Option.some.inj
    rw [List.get_eq_getElem, ← List.getElem?_eq_getElem, List.getElem?_map, this]
    rfl
  rw [simulate_get _ _ _ η hη, stateAt_eq h hd i x η w hlast hw hr, hget]
  have hc : jaxIndex (nT + 1) (if r.period = nT + 1 then -1 else (r.period : Int)) = jaxIndex (nT + 1) r.period := by
    split_ifs with hp
    · rw [jaxIndex_last, hp]
    · rfl
  simp only [stepOf, hc]

end Skill
