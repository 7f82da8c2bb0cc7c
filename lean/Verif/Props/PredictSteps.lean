import Verif.Props.UpdateInfo
import Verif.Model.Likelihood
/-
C38: between which updates a predict step takes place.
-/
namespace Skill
open Spec

theorem isPredictIteration_length (ps : List Nat) : (isPredictIteration ps).length = ps.length := by
  induction ps with
  | nil => rfl
  | cons p ps ih =>
    cases ps with
    | nil => rfl
    | cons q ps => simpa [isPredictIteration] using ih

theorem isPredictIteration_iff (ps : List Nat) (k p : Nat) (hk : ps[k]? = some p) :
    (isPredictIteration ps)[k]? = some true ↔ ps[k + 1]? = some (p + 1) := by
  induction ps generalizing k with
  | nil => simp at hk
  | cons a ps ih =>
    cases ps with
    | nil =>
      cases k with
      | zero => simp [isPredictIteration]
      | succ k => simp at hk
    | cons b ps =>
      cases k with
      | zero =>
        simp only [List.getElem?_cons_zero, Option.some.injEq] at hk
        subst hk
        simp only [isPredictIteration, List.getElem?_cons_zero, List.getElem?_cons_succ, Option.some.injEq, decide_eq_true_eq]
        omega
      | succ k =>
        simp only [List.getElem?_cons_succ] at hk ih ⊢
        simp only [isPredictIteration, List.getElem?_cons_succ]
        exact ih k hk

/-- For a non-decreasing list without gaps in its values, the flags mark the last positions of
all values but the greatest. -/
theorem isPredictIteration_last {ps : List Nat} (hs : ps.Pairwise (· ≤ ·)) {T : Nat} (hall : ∀ t < T, t ∈ ps) (hlt : ∀ p ∈ ps, p < T)
    {k p : Nat} (hk : ps[k]? = some p) :
    (isPredictIteration ps)[k]? = some true ↔ p + 1 < T ∧ ∀ j q, k < j → ps[j]? = some q → q ≠ p := by
  rw [isPredictIteration_iff ps k p hk]
  have hmono : ∀ {i j a b : Nat}, i < j → ps[i]? = some a → ps[j]? = some b → a ≤ b := by
    intro i j a b hij ha hb
    obtain ⟨hi, rfl⟩ := List.getElem?_eq_some_iff.mp ha
    obtain ⟨hj, rfl⟩ := List.getElem?_eq_some_iff.mp hb
    exact List.pairwise_iff_getElem.mp hs i j hi hj hij
  constructor
  · intro h
    refine ⟨hlt _ (List.mem_of_getElem? h), fun j q hj hq he => ?_⟩
    subst he
    rcases Nat.lt_or_ge (k + 1) j with h1 | h1
    · have := hmono h1 h hq
      omega
    · have : j = k + 1 := by omega
      subst this
      rw [h] at hq
      simp at hq
  · rintro ⟨h1, h2⟩
    obtain ⟨j, hj⟩ := List.getElem?_of_mem (hall _ h1)
    have hkj : k < j := by
      rcases Nat.lt_trichotomy k j with h | h | h
      · exact h
      · subst h; rw [hk] at hj; simp at hj
      · have := hmono h hj hk; omega
    obtain ⟨hjl, _⟩ := List.getElem?_eq_some_iff.mp hj
    have hk1 : k + 1 < ps.length := by omega
    have hq : ps[k + 1]? = some ps[k + 1] := List.getElem?_eq_getElem hk1
    have a1 := hmono (Nat.lt_succ_self k) hk hq
    have a2 := h2 _ _ (Nat.lt_succ_self k) hq
    have a3 : ps[k + 1] ≤ p + 1 := by
      rcases Nat.lt_or_ge (k + 1) j with h | h
      · exact hmono h hq hj
      · have : j = k + 1 := by omega
        subst this
        rw [hj] at hq
        simp only [Option.some.injEq] at hq
        omega
    rw [hq]
    congr 1
    omega

theorem exists_last {ps : List Nat} {t : Nat} (hne : t ∈ ps) : ∃ k : Nat, ps[k]? = some t ∧ ∀ j t' : Nat, k < j → ps[j]? = some t' → t' ≠ t := by
  induction ps with
  | nil => simp at hne
  | cons p ps ih =>
    by_cases hm : t ∈ ps
    · obtain ⟨k, hk, hk2⟩ := ih hm
      refine ⟨k + 1, by simpa using hk, fun j t' hj hj2 => ?_⟩
      obtain ⟨j, rfl⟩ : ∃ j', j = j' + 1 := ⟨j - 1, by omega⟩
      exact hk2 j t' (by omega) (by simpa using hj2)
    · have : t = p := by simpa [hm] using hne
      subst this
      refine ⟨0, rfl, fun j t' hj hj2 he => ?_⟩
      obtain ⟨j, rfl⟩ : ∃ j', j = j' + 1 := ⟨j - 1, by omega⟩
      subst he
      exact hm (List.mem_of_getElem? (by simpa using hj2))

section
variable {α : Type} [OfScientific α] [Neg α] [Zero α] [One α] [OfNat α 2] [DecidableEq α]

theorem processModel_nPeriods {m : ModelDict α} {pm : Processed α} (h : processModel m = .ok pm) : IsNPeriods m pm.dimensions.nPeriods := by
  obtain ⟨n, hn, hd, _⟩ := processModel_updateInfo h
  rw [hd]
  exact hn

/-- **C38.** In an accepted model in which each period has at least one update (measurement or anchoring
outcome): a predict step follows exactly the updates that are the last of their period in
update_info, for all periods but the last one; it uses the transition parameters, shock sds,
anchoring parameters and observed factors of that period (the index is not changed by indexing arrays
of length n_periods or n_periods - 1); and there is exactly one predict step for each pair of
consecutive periods. -/
theorem C38_predict_steps_partial {m : ModelDict α} {pm : Processed α} (h : processModel m = .ok pm)
    (hall : ∀ t, IsPeriod m t → ∃ v, IsUpdate m t v) :
    let periods := pm.updateInfo.map (fun r => r.period)
    let flags := isPredictIteration periods
    let index := iterationToPeriod (pm.dimensions.nPeriods - 1) periods
    flags.length = periods.length ∧ index.length = periods.length ∧
    (∀ k t : Nat, periods[k]? = some t → (flags[k]? = some true ↔
      IsPeriod m (t + 1) ∧ ∀ j t' : Nat, k < j → periods[j]? = some t' → t' ≠ t)) ∧
    (∀ (k t : Nat) (i : Int), periods[k]? = some t → index[k]? = some i → ∀ nT, pm.dimensions.nPeriods = nT + 2 →
      (jaxIndex (nT + 1) i).val = t ∧
      (flags[k]? = some true → (jaxIndex nT i).val = t ∧ (jaxIndex (nT + 1) (i + 1)).val = t + 1)) ∧
    (∀ t, IsPeriod m (t + 1) → ∃! k : Nat, flags[k]? = some true ∧ periods[k]? = some t) := by
  intro periods flags index
  obtain ⟨_, h2, h3, _⟩ := C01_update_info_exact h
  have hT := processModel_nPeriods h
  have hs : periods.Pairwise (· ≤ ·) := List.pairwise_map.mpr h3
  have hP : ∀ t, IsPeriod m t ↔ t < pm.dimensions.nPeriods := by
    intro t
    constructor
    · rintro ⟨n, hn, hlt⟩
      rwa [IsNPeriods.unique hn hT] at hlt
    · intro hlt; exact ⟨_, hT, hlt⟩
  have hmem : ∀ t < pm.dimensions.nPeriods, t ∈ periods := by
    intro t ht
    obtain ⟨v, hv⟩ := hall t ((hP t).mpr ht)
    obtain ⟨r, hr, rfl, _⟩ := (h2 t v).mpr hv
    exact List.mem_map.mpr ⟨r, hr, rfl⟩
  have hlt : ∀ p ∈ periods, p < pm.dimensions.nPeriods := by
    intro p hp
    obtain ⟨r, hr, rfl⟩ := List.mem_map.mp hp
    rcases (h2 r.period r.var).mp ⟨r, hr, rfl, rfl⟩ with ⟨f, hM⟩ | ⟨hp, _⟩
    · exact measures_lt hT hM
    · exact (hP _).mp hp
  have hflag : ∀ k t : Nat, periods[k]? = some t → (flags[k]? = some true ↔
      IsPeriod m (t + 1) ∧ ∀ j t' : Nat, k < j → periods[j]? = some t' → t' ≠ t) := by
    intro k t hk
    rw [hP]
    exact isPredictIteration_last hs hmem hlt hk
  refine ⟨isPredictIteration_length _, by simp [index, iterationToPeriod], hflag, ?_, ?_⟩
  · intro k t i hk hi nT hn
    have ht := hlt t (List.mem_of_getElem? hk)
    simp only [index, iterationToPeriod, List.getElem?_map, hk, Option.map_some, Option.some.injEq] at hi
    rw [hn] at hi ht
    refine ⟨?_, fun hf => ?_⟩
    · rw [← hi]
      unfold jaxIndex
      simp only
      split <;> split <;> omega
    · have := ((hflag k t hk).mp hf).1
      rw [hP, hn] at this
      rw [← hi]
      unfold jaxIndex
      simp only
      rw [if_neg (by omega), if_neg (by omega), if_neg (by omega)]
      omega
  · intro t ht
    have hlt1 : t + 1 < pm.dimensions.nPeriods := (hP _).mp ht
    -- the last position of t
    have hex : ∃ k, periods[k]? = some t ∧ ∀ j t' : Nat, k < j → periods[j]? = some t' → t' ≠ t := by
      exact exists_last (hmem t (by omega))
    obtain ⟨k, hk, hk2⟩ := hex
    refine ⟨k, ⟨(hflag k t hk).mpr ⟨ht, hk2⟩, hk⟩, ?_⟩
    rintro k' ⟨hf', hk'⟩
    have h2' := ((hflag k' t hk').mp hf').2
    rcases Nat.lt_trichotomy k' k with hl | hl | hl
    · exact absurd rfl (h2' k t hl hk)
    · exact hl
    · exact absurd rfl (hk2 k' t hl hk')

end

/-- The example model has an update in each of its four periods. -/
example : ∃ pm, processModel Ex.model2 = .ok pm ∧ (∀ t < pm.dimensions.nPeriods, ∃ r ∈ pm.updateInfo, r.period = t) ∧
    isPredictIteration (pm.updateInfo.map (fun r => r.period)) =
      [false, false, false, false, false, false, true, false, false, false, true, false, false, false, true, false, false, false, false] := by
  have h : (processModel Ex.model2).map (fun p => (decide (∀ t < p.dimensions.nPeriods, ∃ r ∈ p.updateInfo, r.period = t) &&
      decide (isPredictIteration (p.updateInfo.map (fun r => r.period)) =
      [false, false, false, false, false, false, true, false, false, false, true, false, false, false, true, false, false, false, false]))) = .ok true := by
    decide +kernel
  cases hp : processModel Ex.model2 with
  | error e => rw [hp] at h; cases h
  | ok pm =>
    rw [hp] at h
    have h := Except.ok.inj h
    simp only [Bool.and_eq_true, decide_eq_true_eq] at h
    exact ⟨pm, rfl, h.1, h.2⟩

/-- A model with three periods and no measurement in the second one. -/
def Ex.gap : ModelDict Rat where
  factors := [("fac1", { measurements := [["y1", "y2"], [], ["y1", "y2"]], transition := .named "linear" })]
  estimationOptions := some {}

/-- C38, negative part: the model with a period without updates is accepted, and there is no predict
step at all between its first and last period: both transitions are skipped. -/
theorem C38_skipped_transitions : ∃ pm, processModel Ex.gap = .ok pm ∧ pm.dimensions.nPeriods = 3 ∧
    pm.updateInfo.map (fun r => r.period) = [0, 0, 2, 2] ∧
    isPredictIteration (pm.updateInfo.map (fun r => r.period)) = [false, false, false, false] := by
  have h : (processModel Ex.gap).map (fun p => (p.dimensions.nPeriods, p.updateInfo.map (fun r => r.period),
      isPredictIteration (p.updateInfo.map (fun r => r.period)))) = .ok (3, [0, 0, 2, 2], [false, false, false, false]) := by
    decide +kernel
  cases hp : processModel Ex.gap with
  | error e => rw [hp] at h; cases h
  | ok pm =>
    rw [hp] at h
    have h := Except.ok.inj h
    simp only [Prod.mk.injEq] at h
    exact ⟨pm, rfl, h.1, h.2.1, h.2.2⟩

end Skill
