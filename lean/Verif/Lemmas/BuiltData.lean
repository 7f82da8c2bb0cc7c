import Verif.Props.ObservationalEquivalence

/-! Datasets with given covariates and measurements (used for C106). -/

namespace Skill
open Spec

/-- An individual: covariates and measurements. -/
abbrev Person := Covariates × (Nat → String → ℝ)

open Classical in
/-- The row of the i-th individual in period t. -/
noncomputable def builtRow (m : ModelDict ℝ) (who : ℕ → Person) (i t : ℕ) : LongRow ℝ where
  id := i
  period := t
  cell c :=
    if IsUpdate m t c then if (who i).1.isObserved t c then some ((who i).2 t c) else none
    else if c ∈ m.observedFactors.getD [] then some ((who i).1.factor t c)
    else some ((who i).1.control t c)

/-- The dataset with the individuals `who 0`, ..., `who (N - 1)` and periods 0, ..., n - 1. -/
noncomputable def builtData (m : ModelDict ℝ) (updates : List (Nat × String)) (who : ℕ → Person) (N n : ℕ) : LongData ℝ where
  columns := updates.map Prod.snd ++ m.controls.getD [] ++ m.observedFactors.getD []
  idLevel := (List.range N).map Int.ofNat
  periodLevel := (List.range n).map Int.ofNat
  rows := (List.product (List.range N) (List.range n)).map (fun p => builtRow m who p.1 p.2)

def countTo (N : ℕ) : List Int := (List.range N).map Int.ofNat

section
variable {m : ModelDict ℝ} {updates : List (Nat × String)} {who : ℕ → Person} {N n : ℕ}

theorem mem_built {r : LongRow ℝ} : r ∈ (builtData m updates who N n).rows ↔ ∃ i t, i < N ∧ t < n ∧ r = builtRow m who i t := by
  unfold builtData
  simp only [List.mem_map, List.product, List.mem_flatMap, List.mem_range, Prod.exists]
  constructor
  · rintro ⟨i, t, ⟨i', hi, t', ht, h⟩, rfl⟩
    simp only [Prod.mk.injEq] at h
    exact ⟨i, t, h.1 ▸ hi, h.2 ▸ ht, rfl⟩
  · rintro ⟨i, t, hi, ht, rfl⟩
    exact ⟨i, t, ⟨i, hi, t, ht, rfl⟩, rfl⟩

theorem countTo_nodup (N : ℕ) : (countTo N).Nodup := List.Nodup.map (fun _ _ h => Int.ofNat.inj h) List.nodup_range

theorem countTo_get {N i : ℕ} (h : i < N) : (countTo N)[i]? = some (i : ℤ) := by
  unfold countTo
  rw [List.getElem?_map, List.getElem?_range h]
  rfl

theorem countTo_length (N : ℕ) : (countTo N).length = N := by simp [countTo]

theorem countTo_sorted (N : ℕ) : (countTo N).Pairwise (· < ·) := by
  unfold countTo
  rw [List.pairwise_map]
  exact List.Pairwise.imp (fun h => Int.ofNat_lt.mpr h) List.pairwise_lt_range

theorem built_index : IndexOk (builtData m updates who N n) := by
  refine ⟨countTo_nodup N, countTo_nodup n, fun r hr => ?_, fun r hr => ?_⟩
  · obtain ⟨i, t, hi, ht, rfl⟩ := mem_built.mp hr
    exact List.mem_map.mpr ⟨i, List.mem_range.mpr hi, rfl⟩
  · obtain ⟨i, t, hi, ht, rfl⟩ := mem_built.mp hr
    exact List.mem_map.mpr ⟨t, List.mem_range.mpr ht, rfl⟩

theorem built_noUnused (hN : 0 < N) : NoUnusedPeriods (builtData m updates who N n) := by
  intro p hp
  obtain ⟨t, ht, rfl⟩ := List.mem_map.mp hp
  exact ⟨_, mem_built.mpr ⟨0, t, hN, List.mem_range.mp ht, rfl⟩, rfl⟩

theorem built_ids (hn : 0 < n) : IdsOf (builtData m updates who N n) (countTo N) := by
  refine ⟨countTo_sorted N, fun x => ⟨fun hx => ?_, ?_⟩⟩
  · obtain ⟨i, hi, rfl⟩ := List.mem_map.mp hx
    exact ⟨_, mem_built.mpr ⟨i, 0, List.mem_range.mp hi, hn, rfl⟩, rfl⟩
  · rintro ⟨r, hr, rfl⟩
    obtain ⟨i, t, hi, ht, rfl⟩ := mem_built.mp hr
    exact List.mem_map.mpr ⟨i, List.mem_range.mpr hi, rfl⟩

theorem built_periods (hN : 0 < N) : PeriodsOf (builtData m updates who N n) (countTo n) := by
  refine ⟨countTo_sorted n, fun x => ⟨fun hx => ?_, ?_⟩⟩
  · obtain ⟨t, ht, rfl⟩ := List.mem_map.mp hx
    exact ⟨_, mem_built.mpr ⟨0, t, hN, List.mem_range.mp ht, rfl⟩, rfl⟩
  · rintro ⟨r, hr, rfl⟩
    obtain ⟨i, t, hi, ht, rfl⟩ := mem_built.mp hr
    exact List.mem_map.mpr ⟨t, List.mem_range.mpr ht, rfl⟩

theorem built_keys : UniqueKeys (builtData m updates who N n) := by
  unfold UniqueKeys builtData
  rw [List.map_map]
  refine List.Nodup.map ?_ (List.Nodup.product List.nodup_range List.nodup_range)
  rintro ⟨i, t⟩ ⟨i', t'⟩ h
  simp only [Function.comp_apply, builtRow, Prod.mk.injEq, Nat.cast_inj] at h
  rw [h.1, h.2]

theorem built_row {i t : ℕ} (hi : i < N) (ht : t < n) : RowOf (builtData m updates who N n) (countTo N) (countTo n) i t (some (builtRow m who i t)) :=
  ⟨mem_built.mpr ⟨i, t, hi, ht, rfl⟩, countTo_get hi, countTo_get ht⟩

theorem built_row_unique {i t : ℕ} (hi : i < N) (ht : t < n) {r : Option (LongRow ℝ)} (h : RowOf (builtData m updates who N n) (countTo N) (countTo n) i t r) : r = some (builtRow m who i t) := by
  cases r with
  | none =>
    obtain ⟨h1, h2, h3⟩ := built_row (m := m) (updates := updates) (who := who) hi ht
    exact absurd ⟨h2, h3⟩ (h.2 _ h1)
  | some r =>
    obtain ⟨h1, h2, h3⟩ := h
    obtain ⟨i', t', _, _, rfl⟩ := mem_built.mp h1
    rw [countTo_get hi] at h2
    rw [countTo_get ht] at h3
    simp only [builtRow, Option.some.injEq, Nat.cast_inj] at h2 h3
    subst h2 h3
    rfl

variable (hna : m.anchoring = none) (hs : SeparateColumns m) (hc : ∀ i t, (who i).1.control t "constant" = 1)
include hs

theorem built_measurement {i t : ℕ} {v : String} (h : IsUpdate m t v) : baseValue (some (builtRow m who i t)) v = if (who i).1.isObserved t v then some ((who i).2 t v) else none := by
  unfold baseValue
  rw [if_neg (hs.measurements t v h).1]
  simp [builtRow, h]

include hc in
theorem built_control {i t : ℕ} {c : String} (h : c ∈ "constant" :: m.controls.getD []) : baseValue (some (builtRow m who i t)) c = some ((who i).1.control t c) := by
  unfold baseValue
  split_ifs with h0
  · rw [h0, hc]
  · have h := (List.mem_cons.mp h).resolve_left h0
    have h1 : ¬IsUpdate m t c := fun hu => (hs.measurements t c hu).2.1 h
    have h2 := hs.controls c h
    simp [builtRow, h1, h2]

theorem built_observed {i t : ℕ} {f : String} (h : f ∈ m.observedFactors.getD []) : baseValue (some (builtRow m who i t)) f = some ((who i).1.factor t f) := by
  have h0 : f ≠ "constant" := by
    rintro rfl
    exact hs.constant h
  unfold baseValue
  rw [if_neg h0]
  have h1 : ¬IsUpdate m t f := fun hu => (hs.measurements t f hu).2.2 h
  simp [builtRow, h1, h]

include hna hc

theorem built_complete (i t : ℕ) : ¬IncompleteControls m (some (builtRow m who i t)) t := by
  rintro ⟨⟨c, hmem, h⟩, _⟩
  rw [valueIs_of_none hna, built_control hs hc hmem] at h
  cases h

theorem built_describes (hper : ∀ t, IsPeriod m t → t < n) {i : ℕ} (hi : i < N) : Describes m (builtData m updates who N n) (countTo N) (countTo n) i (who i).1 (who i).2 := by
  intro t ht
  refine ⟨_, built_row hi (hper t ht), fun v hv => ?_, fun _ c hmem a ha => ?_, fun f hf => ⟨built_complete hna hs hc i t, ?_⟩⟩
  · refine ⟨_, _, (valueIs_of_none hna _ _ _).mpr rfl, Or.inr ⟨built_complete hna hs hc i t, rfl⟩, ?_⟩
    rw [built_measurement hs hv]
    split_ifs with ho
    · exact ⟨ho, fun b hb => Option.some.inj hb⟩
    · exact ⟨by simpa using ho, fun b hb => by cases hb⟩
  · rw [valueIs_of_none hna, built_control hs hc hmem] at ha
    exact (Option.some.inj ha).symm
  · rw [valueIs_of_none hna, built_observed hs hf]

theorem built_ok (henum : Enumerates m updates) (hupd : ∀ t v, IsUpdate m t v → IsPeriod m t) (hper : ∀ t, IsPeriod m t → t < n) {i j : ℕ} (hi : i < N) (hj : j < N)
    (hne : ∀ t v, IsUpdate m t v → (who i).1.isObserved t v = true ∧ (who j).1.isObserved t v = true ∧ (who i).2 t v ≠ (who j).2 t v) :
    DataOk m (builtData m updates who N n) (countTo N) (countTo n) := by
  have hanch : ∀ f o, ¬AnchoredIn m f o := by
    rintro f o ⟨a, ha, _⟩
    rw [hna] at ha
    cases ha
  refine ⟨built_keys, fun f o h => absurd h (hanch f o), fun t ht c hmem => ⟨?_, i, (who i).1.control t c, by rwa [countTo_length], _, built_row hi (hper t ht), ?_⟩, fun t v hv => ⟨?_, ?_⟩, fun t ht f hf => ⟨?_, ?_⟩⟩
  · rcases List.mem_cons.mp hmem with h | h
    · exact Or.inr (Or.inl h)
    · exact Or.inl (List.mem_append_left _ (List.mem_append_right _ h))
  · rw [valueIs_of_none hna, built_control hs hc hmem]
  · exact Or.inl (List.mem_append_left _ (List.mem_append_left _ (List.mem_map.mpr ⟨(t, v), (henum.all t v).mpr hv, rfl⟩)))
  · rintro ⟨y, hy⟩
    obtain ⟨h1, h2, h3⟩ := hne t v hv
    have hval : ∀ k, k < N → (who k).1.isObserved t v = true → (who k).2 t v = y := fun k hk ho =>
      (hy _).mp ⟨k, by rwa [countTo_length], _, built_row hk (hper t (hupd t v hv)), by rw [valueIs_of_none hna, built_measurement hs hv, if_pos ho]⟩
    exact h3 ((hval i hi h1).trans (hval j hj h2).symm)
  · exact Or.inl (List.mem_append_right _ hf)
  · rintro k ⟨hk, r, hr, hval⟩
    rw [countTo_length] at hk
    rw [built_row_unique hk (hper t ht) hr, valueIs_of_none hna, built_observed hs hf] at hval
    cases hval

end

theorem Spec.SameVariables.hasVariable {m m' : ModelDict ℝ} (h : SameVariables m m') (df : LongData ℝ) (c : String) : HasVariable m df c ↔ HasVariable m' df c := by
  unfold HasVariable
  simp only [h.anchors]

theorem Spec.SameVariables.hasValue {m m' : ModelDict ℝ} (h : SameVariables m m') (df : LongData ℝ) (ids pers : List Int) (i t : ℕ) (c : String) (a : Option ℝ) :
    HasValue m df ids pers i t c a ↔ HasValue m' df ids pers i t c a := by
  unfold HasValue
  simp only [h.valueIs]

/-- A dataset can be used for all models about the same variables. -/
theorem Spec.SameVariables.dataOk {m m' : ModelDict ℝ} (h : SameVariables m m') {df : LongData ℝ} {ids pers : List Int} (hd : DataOk m df ids pers) : DataOk m' df ids pers where
  keys := hd.keys
  outcomes f o hf := hd.outcomes f o ((h.anchored f o).mpr hf)
  controls t ht c hc := by
    simp only [← h.hasVariable, ← h.hasValue]
    refine hd.controls t ((h.periods t).mpr ht) c ?_
    rw [List.mem_cons] at hc ⊢
    rwa [h.controls]
  measurements t v hv := by
    simp only [← h.hasVariable, ← h.hasValue]
    exact hd.measurements t v ((h.isUpdate t v).mpr hv)
  observed t ht f hf := by
    simp only [← h.hasVariable, ← h.hasValue]
    exact hd.observed t ((h.periods t).mpr ht) f ((h.observed f).mpr hf)

end Skill
