import Verif.Props.SimulateDataset2
import Verif.Props.DistributionPlots
/-
A simulated dataset as the data of an estimation.
-/
namespace Skill
open Spec

/-- The numbers 0, ..., n - 1. -/
def numbers (n : Nat) : List Int := (List.range n).map (fun i : Nat => (i : Int))

theorem numbers_get {n i : Nat} (h : i < n) : (numbers n)[i]? = some (i : Int) := by
  simp [numbers, h]

theorem numbers_length (n : Nat) : (numbers n).length = n := by simp [numbers]

theorem numbers_pairwise (n : Nat) : (numbers n).Pairwise (· < ·) := by
  unfold numbers
  rw [List.pairwise_map]
  exact List.pairwise_lt_range.imp (fun h => by exact_mod_cast h)

section
variable {m : ModelDict ℝ} {pm : Processed ℝ} (hpm : processModel m = .ok pm) {val : Loc → ℝ} {n : Nat} {x : Nat → Cell m → ℝ} {out : SimulatedDataset} (h : DatasetIs m val n x out)
include hpm h

/-- Every row of the measurements belongs to an individual and a period. -/
theorem simulated_row_mem {r : DataRow ℝ} (hr : r ∈ out.measurements.rows) : ∃ i < n, ∃ t < pm.dimensions.nPeriods, out.measurements.rows[i * pm.dimensions.nPeriods + t]? = some r ∧ r.id = i ∧ r.period = t := by
  obtain ⟨q, hq⟩ := List.getElem?_of_mem hr
  have hN := isNPeriods_of_ok hpm
  have hlt : q < n * pm.dimensions.nPeriods := by
    rw [← (h.size _ hN).2.2]
    exact (List.getElem?_eq_some_iff.mp hq).1
  have hpos : 0 < pm.dimensions.nPeriods := by
    rcases Nat.eq_zero_or_pos pm.dimensions.nPeriods with h0 | h0
    · rw [h0] at hlt; omega
    · exact h0
  have hi : q / pm.dimensions.nPeriods < n := by
    rw [Nat.div_lt_iff_lt_mul hpos]
    exact hlt
  have ht := Nat.mod_lt q hpos
  have hqe : q / pm.dimensions.nPeriods * pm.dimensions.nPeriods + q % pm.dimensions.nPeriods = q := Nat.div_add_mod' q _
  obtain ⟨r', h1, h2, h3, _⟩ := h.measurements _ hN _ hi _ ht
  rw [hqe] at h1
  obtain rfl := Option.some.inj (hq.symm.trans h1)
  exact ⟨_, hi, _, ht, by rw [hqe]; exact hq, h2, h3⟩

theorem simulated_index : IndexOk (asDataset out.measurements) ∧ NoUnusedPeriods (asDataset out.measurements) := by
  refine ⟨⟨List.nodup_dedup _, List.nodup_dedup _, fun r hr => ?_, fun r hr => ?_⟩, fun p hp => ?_⟩
  · obtain ⟨r', hr', rfl⟩ := List.mem_map.mp hr
    exact List.mem_dedup.mpr (List.mem_map.mpr ⟨r', hr', rfl⟩)
  · obtain ⟨r', hr', rfl⟩ := List.mem_map.mp hr
    exact List.mem_dedup.mpr (List.mem_map.mpr ⟨r', hr', rfl⟩)
  · obtain ⟨r', hr', rfl⟩ := List.mem_map.mp (List.mem_dedup.mp hp)
    exact ⟨_, List.mem_map.mpr ⟨r', hr', rfl⟩, rfl⟩

theorem simulated_keys : UniqueKeys (asDataset out.measurements) := by
  unfold UniqueKeys asDataset
  dsimp only
  rw [List.map_map, List.nodup_iff_injective_getElem]
  rintro ⟨a, ha⟩ ⟨b, hb⟩ hab
  simp only [List.getElem_map, Function.comp, Prod.mk.injEq, Nat.cast_inj] at hab
  have hN := isNPeriods_of_ok hpm
  rw [List.length_map, (h.size _ hN).2.2] at ha hb
  have key : ∀ q (hq : q < n * pm.dimensions.nPeriods) (hq' : q < out.measurements.rows.length), out.measurements.rows[q].id * pm.dimensions.nPeriods + out.measurements.rows[q].period = q := by
    intro q hq hq'
    have hpos : 0 < pm.dimensions.nPeriods := by
      rcases Nat.eq_zero_or_pos pm.dimensions.nPeriods with h0 | h0
      · rw [h0] at hq; omega
      · exact h0
    obtain ⟨r', h1, h2, h3, _⟩ := h.measurements _ hN _ ((Nat.div_lt_iff_lt_mul hpos).mpr hq) _ (Nat.mod_lt q hpos)
    rw [Nat.div_add_mod', List.getElem?_eq_getElem hq'] at h1
    rw [Option.some.inj h1, h2, h3, Nat.div_add_mod']
  have e1 := key a ha (by rw [(h.size _ hN).2.2]; exact ha)
  have e2 := key b hb (by rw [(h.size _ hN).2.2]; exact hb)
  rw [Fin.mk.injEq, ← e1, ← e2, hab.1, hab.2]

theorem simulated_rowOf {i t : Nat} (hi : i < n) (ht : IsPeriod m t) : ∃ r, RowOf (asDataset out.measurements) (numbers n) (numbers pm.dimensions.nPeriods) i t (some r) ∧
    ∀ c : {p : Nat × String // IsUpdate m p.1 p.2}, c.1.1 = t → r.cell c.1.2 = some (x i (.inr c)) := by
  have htl := (isPeriod_iff hpm t).mp ht
  obtain ⟨r, h1, h2, h3, h4, _⟩ := h.measurements _ (isNPeriods_of_ok hpm) i hi t htl
  refine ⟨{ id := r.id, period := r.period, cell := r.cell }, ⟨List.mem_map.mpr ⟨r, List.mem_of_getElem? h1, rfl⟩, ?_, ?_⟩, h4⟩
  · rw [numbers_get hi, h2]
  · rw [numbers_get htl, h3]

theorem simulated_ids (hper : IsPeriod m 0) : IdsOf (asDataset out.measurements) (numbers n) := by
  refine ⟨numbers_pairwise n, fun a => ⟨fun ha => ?_, ?_⟩⟩
  · obtain ⟨i, hi, rfl⟩ := List.mem_map.mp ha
    obtain ⟨r, hr, _⟩ := simulated_rowOf hpm h (List.mem_range.mp hi) hper
    refine ⟨r, hr.1, ?_⟩
    have := hr.2.1
    rw [numbers_get (List.mem_range.mp hi)] at this
    exact (Option.some.inj this).symm
  · rintro ⟨r, hr, rfl⟩
    obtain ⟨r', hr', rfl⟩ := List.mem_map.mp hr
    obtain ⟨i, hi, t, _, _, h1, _⟩ := simulated_row_mem hpm h hr'
    exact List.mem_map.mpr ⟨i, List.mem_range.mpr hi, by rw [h1]⟩

theorem simulated_periods (hn : 0 < n) : PeriodsOf (asDataset out.measurements) (numbers pm.dimensions.nPeriods) := by
  refine ⟨numbers_pairwise _, fun a => ⟨fun ha => ?_, ?_⟩⟩
  · obtain ⟨t, ht, rfl⟩ := List.mem_map.mp ha
    obtain ⟨r, hr, _⟩ := simulated_rowOf hpm h hn ((isPeriod_iff hpm t).mpr (List.mem_range.mp ht))
    refine ⟨r, hr.1, ?_⟩
    have := hr.2.2
    rw [numbers_get (List.mem_range.mp ht)] at this
    exact (Option.some.inj this).symm
  · rintro ⟨r, hr, rfl⟩
    obtain ⟨r', hr', rfl⟩ := List.mem_map.mp hr
    obtain ⟨i, _, t, ht, _, _, h1⟩ := simulated_row_mem hpm h hr'
    exact List.mem_map.mpr ⟨t, List.mem_range.mpr ht, by rw [h1]⟩

/-- The value of a measurement of an individual. -/
theorem simulated_hasValue (hna : m.anchoring = none) (hno : ∀ t v, IsUpdate m t v → v ≠ "constant") {i : Nat} (hi : i < n) (c : {p : Nat × String // IsUpdate m p.1 p.2}) (v : Option ℝ) :
    HasValue m (asDataset out.measurements) (numbers n) (numbers pm.dimensions.nPeriods) i c.1.1 c.1.2 v ↔ v = some (x i (.inr c)) := by
  obtain ⟨r, hr, hc⟩ := simulated_rowOf hpm h hi (isUpdate_period c.2)
  have hb : ∀ r', RowOf (asDataset out.measurements) (numbers n) (numbers pm.dimensions.nPeriods) i c.1.1 r' → baseValue r' c.1.2 = some (x i (.inr c)) := by
    intro r' hr'
    obtain rfl : r' = some r := by
      cases r' with
      | none => exact absurd ⟨hr.2.1, hr.2.2⟩ (hr'.2 r hr.1)
      | some r' => rw [uniqueRow (simulated_keys hpm h) hr hr']
    unfold baseValue
    rw [if_neg (hno _ _ c.2), Option.bind_some, hc c rfl]
  constructor
  · rintro ⟨_, r', hr', hv⟩
    rw [valueIs_of_none hna] at hv
    rw [hv, hb r' hr']
  · rintro rfl
    exact ⟨by rw [numbers_length]; exact hi, some r, hr, (valueIs_of_none hna _ _ _).mpr (hb _ hr).symm⟩

end

end Skill
