import Verif.Props.PeriodsSimulation
import Verif.Props.TotalEffects
import Verif.Props.PolicyEffects
import Verif.Props.FactorsSimulationExamples
/- C115: a policy in the last of the remaining periods changes simulated data. -/
namespace Skill
open Matrix Spec

section
variable {m : ModelDict ℝ} {pm : Processed ℝ} (hpm : processModel m = .ok pm) {n' : ℕ} (h2 : 2 ≤ n') (hle : n' ≤ pm.dimensions.nPeriods)
include hpm h2 hle

theorem reduced_periods (t : ℕ) : IsPeriod (reduceNPeriods m n') t ↔ t < n' := by
  obtain ⟨pm', hpm'⟩ := accepted_reduceNPeriods (n := n') ⟨pm, hpm⟩ (by omega)
  rw [isPeriod_iff hpm', (updateInfo_reduce hpm hle hpm').1]

theorem reduced_updates (t : ℕ) (v : String) : IsUpdate (reduceNPeriods m n') t v ↔ IsUpdate m t v ∧ t < n' := by
  obtain ⟨pm', hpm'⟩ := accepted_reduceNPeriods (n := n') ⟨pm, hpm⟩ (by omega)
  rw [← (C01_update_info_exact hpm').2.1, ← (C01_update_info_exact hpm).2.1, (updateInfo_reduce hpm hle hpm').2]
  constructor
  · rintro ⟨r, hr, rfl, rfl⟩
    exact ⟨⟨r, (List.mem_filter.mp hr).1, rfl, rfl⟩, of_decide_eq_true (List.mem_filter.mp hr).2⟩
  · rintro ⟨⟨r, hr, rfl, rfl⟩, h⟩
    exact ⟨r, List.mem_filter.mpr ⟨hr, decide_eq_true h⟩, rfl, rfl⟩

theorem reduced_simulationModel {k : ℕ} (hm : SimulationModel m k) : SimulationModel (reduceNPeriods m n') k := by
  have he := edit_reduceNPeriods m n'
  have hup := reduced_updates hpm h2 hle
  have hper' := reduced_periods hpm h2 hle
  exact {
    names := he.goodNames hm.names
    anchoring := ⟨he.cleanAnchoring hm.anchoring.1, he.sameOrder hm.anchoring.2.1, he.noNameClash hm.anchoring.2.2⟩
    safe := fun f hf => hm.safe f ((he.isLatent f).mp hf)
    columns := fun f h => hm.columns f (h.imp (he.isLatent f).mp (fun ⟨t, ht⟩ => ⟨t, ((hup t f).mp ht).1⟩))
    periods := (hper' 1).mpr (by omega)
    updates := fun t ht => by
      obtain ⟨v, hv⟩ := hm.updates t ((isPeriod_iff hpm t).mpr (((hper' t).mp ht).trans_le hle))
      exact ⟨v, (hup t v).mpr ⟨hv, (hper' t).mp ht⟩⟩
    mixture := hm.mixture
    elements := hm.elements }

theorem reduced_individuals {nObs : Option Nat} {data : Option (LongData ℝ)} {n : ℕ} {cov : Nat → Covariates} (hi : Individuals m nObs data n cov) : Individuals (reduceNPeriods m n') nObs data n cov := by
  have he := edit_reduceNPeriods m n'
  have hup := reduced_updates hpm h2 hle
  have hle' : ∀ t, IsPeriod (reduceNPeriods m n') t → IsPeriod m t := fun t h => (isPeriod_iff hpm t).mpr (((reduced_periods hpm h2 hle t).mp h).trans_le hle)
  cases hi with
  | @ofData _ df ids pers _ h1 h2 h3 h4 h5 h6 =>
    refine .ofData h1 h2 h3 h4 ⟨h5.keys, fun f o ha => h5.outcomes f o ((he.anchoredIn f o).mp ha), fun t ht c hc => ?_, fun t v h => ?_, fun t ht f hf => ?_⟩ (fun i hil t ht => ?_)
    · simp only [he.hasVariable, he.hasValue]
      exact h5.controls t (hle' t ht) c hc
    · rw [he.hasVariable]
      exact h5.measurements t v ((hup t v).mp h).1
    · simp only [he.hasVariable, he.hasValue]
      exact h5.observed t (hle' t ht) f hf
    · obtain ⟨r, hr, hr1, hr2⟩ := h6 i hil t (hle' t ht)
      refine ⟨r, hr, fun c hc => ?_, fun f hf => ?_⟩
      · rw [he.valueIs]
        exact hr1 c hc
      · rw [he.valueIs]
        exact hr2 f hf
  | ofNumber h1 h2 h3 => exact .ofNumber h1 h2 h3

theorem reduced_values {custom : String → CustomFn} {k : ℕ} {val : Loc → ℝ} {policies : List Policy} (hv : SimulationValues custom m k val policies) : SimulationValues custom (reduceNPeriods m n') k val policies := by
  have he := edit_reduceNPeriods m n'
  have hle' : ∀ t, IsPeriod (reduceNPeriods m n') t → IsPeriod m t := fun t h => (isPeriod_iff hpm t).mpr (((reduced_periods hpm h2 hle t).mp h).trans_le hle)
  exact ⟨hv.positive, hv.sum, fun t ht fs hfs => by
    obtain ⟨f, spec⟩ := fs
    obtain ⟨s, hs', rfl⟩ := mem_reduceNPeriods.mp hfs
    rw [he.allFactors_eq]
    exact hv.usable t (hle' _ ht) (f, s) hs', fun p hp h => by
    obtain ⟨h1, h2⟩ := hv.policies p hp (hle' _ h)
    exact ⟨(he.isLatent _).mpr h1, h2⟩⟩
end

/-- The cells of a dataset are determined by the dataset. -/
theorem DatasetIs.states_eq {m : ModelDict ℝ} {val : Loc → ℝ} {n N : ℕ} {x y : Nat → Cell m → ℝ} {out : SimulatedDataset} (hN : IsNPeriods m N) (hx : DatasetIs m val n x out) (hy : DatasetIs m val n y out) {i t : ℕ} (hi : i < n) (ht : t < N)
    (c : {p : Nat × String // IsPeriod m p.1 ∧ p.2 ∈ Spec.latents m}) (hc : c.1.1 = t) : x i (.inl c) = y i (.inl c) := by
  obtain ⟨cells, h1, _, _, h2⟩ := hx.unanchored N hN i hi t ht
  obtain ⟨cells', h1', _, _, h2'⟩ := hy.unanchored N hN i hi t ht
  rw [h1] at h1'
  obtain rfl : cells = cells' := (Prod.mk.inj (Option.some.inj h1')).2
  rw [← h2 c hc, h2' c hc]

namespace Ex

/-- A policy that raises the factor a by 2 in the second period. -/
def secondPeriodPolicy : List Policy := [{ period := 1, factor := "a", effectSize := 2, standardDeviation := 0 }]

theorem sepModel_anyValues (custom : String → CustomFn) (s : ℝ) {policies : List Policy} (h : ∀ p ∈ policies, p.factor = "a" ∧ p.standardDeviation = 0) : SimulationValues custom sepModel 1 (sepValues s) policies :=
  let hl := linear_simulationValues sepModel_linear sepModel_names custom (sepValues_proper s)
  ⟨hl.positive, hl.sum, hl.usable, fun p hp _ => by
    rw [(h p hp).1, (h p hp).2]
    exact ⟨(sepModel_latent "a").mpr (Or.inl rfl), le_rfl⟩⟩

/-- **C115**: the assumption on policies is needed. With three periods a policy raises the factor a by 2 in the second period; with two periods the second period is the last one and the policy does nothing. -/
theorem C115_last_period_policy (root : NormalRoot) (custom : String → CustomFn) (nan : ℝ) : ∃ (params params' : List (Loc × ℝ)) (out out' : SimulatedDataset) (x : Nat → Cell sepModel → ℝ) (x' : Nat → Cell (reduceNPeriods sepModel 2) → ℝ),
    HasParams sepModel params (sepValues 0) ∧ HasParams (reduceNPeriods sepModel 2) params' (sepValues 0) ∧
    simulateDataset root custom nan sepModel params none (some editData) secondPeriodPolicy ones = .ok out ∧ simulateDataset root custom nan (reduceNPeriods sepModel 2) params' none (some editData) secondPeriodPolicy ones = .ok out' ∧
    DatasetIs sepModel (sepValues 0) 3 x out ∧ DatasetIs (reduceNPeriods sepModel 2) (sepValues 0) 3 x' out' ∧ ∀ i < 3, ∀ h h', x i (.inl ⟨(1, "a"), h⟩) = x' i (.inl ⟨(1, "a"), h'⟩) + 2 := by
  obtain ⟨pm, hpm, hP⟩ := sepModel_ok
  obtain ⟨pm', hpm'⟩ := accepted_reduceNPeriods (n := 2) ⟨pm, hpm⟩ (by norm_num)
  have hle : 2 ≤ pm.dimensions.nPeriods := by omega
  have hT' := (updateInfo_reduce hpm hle hpm').1
  have hN : IsNPeriods sepModel 3 := hP ▸ isNPeriods_of_ok hpm
  have hN' : IsNPeriods (reduceNPeriods sepModel 2) 2 := by
    have := isNPeriods_of_ok hpm'
    rwa [hT'] at this
  obtain ⟨params, hp⟩ := exists_params hpm sepModel_names (sepValues 0)
  obtain ⟨params', hp'⟩ := exists_params hpm' ((edit_reduceNPeriods sepModel 2).goodNames sepModel_names) (sepValues 0)
  have hdet : ∀ p ∈ secondPeriodPolicy, p.factor = "a" ∧ p.standardDeviation = 0 := by
    intro p h
    simp only [secondPeriodPolicy, List.mem_cons, List.not_mem_nil, or_false] at h
    subst h
    exact ⟨rfl, rfl⟩
  have hv := sepModel_anyValues custom 0 hdet
  have hv0 := sepModel_anyValues custom 0 (policies := []) (by simp)
  obtain ⟨x, y, out, res, h1, h2, h3, h4, h5⟩ := C135_policy_effects root hpm sepModel_simulation (fun f spec h => sepModel_linear.transitions f spec h) custom nan hv hv0 hp
    (sepData_individuals none) (by norm_num) (draws := ones) (draws' := ones) (fun h => absurd rfl h) (fun _ _ => ⟨rfl, fun _ => rfl, fun _ _ => rfl, fun _ _ => rfl⟩)
  obtain ⟨z, z', res2, res', k1, k2, k3, k4, k5, _⟩ := C115_simulation root hpm sepModel_simulation hN (n' := 2) le_rfl (by norm_num) custom nan (policies := []) (by simp) hv0 hp hp' (sepData_individuals none) (by norm_num) (draws := ones) (fun h => absurd rfl h)
  obtain rfl : res = res2 := Except.ok.inj (h2.symm.trans k1)
  obtain ⟨x', res3, out', g1, g2, g3, g4, _⟩ := C150_policies_add_up root hpm' (reduced_simulationModel hpm le_rfl hle sepModel_simulation) custom nan (reduced_values hpm le_rfl hle hv0) (reduced_values hpm le_rfl hle hv) (by simp) (fun p h => (hdet p h).2)
    (fun t f ht _ => by
      have ht := (reduced_periods hpm le_rfl hle _).mp ht
      obtain rfl : t = 0 := by omega
      simp [effectSizes, secondPeriodPolicy]) hp' (reduced_individuals hpm le_rfl hle (sepData_individuals none)) (by norm_num) (draws := ones) (draws' := ones) (fun h => absurd rfl h) ⟨rfl, fun _ _ _ => rfl⟩
  obtain rfl : res' = res3 := Except.ok.inj (k2.symm.trans g1)
  refine ⟨params, params', out, out', x, x', hp, hp', h1, g2, h3, g4, fun i hi h h' => ?_⟩
  have e1 := DatasetIs.states_eq hN' k4 g3 hi (t := 1) (by norm_num) ⟨(1, "a"), h'⟩ rfl
  have e2 := k5 i hi ⟨(1, "a"), h⟩ ⟨(1, "a"), h'⟩ rfl
  have e3 := DatasetIs.states_eq hN h4 k3 hi (t := 1) (by norm_num) ⟨(1, "a"), h⟩ rfl
  have h6 := h5 i hi (.inl ⟨(1, "a"), h⟩)
  have hp1 : IsPeriod sepModel 1 := (sepModel_period 1).mpr (by norm_num)
  have hp2 : IsPeriod sepModel 2 := (sepModel_period 2).mpr (by norm_num)
  have hc : ¬HasTransition sepModel "a" "constant" := by
    rintro ⟨spec, hmem, h⟩
    simp only [sepModel, List.mem_cons, Prod.mk.injEq, List.not_mem_nil, or_false] at hmem
    rcases hmem with ⟨_, rfl⟩ | ⟨_, rfl⟩ <;> simp at h
  have hl : Spec.latents sepModel = ["a", "b"] := rfl
  have hs : ∀ t f, anchorScale sepModel (sepValues 0) t f = 1 := fun _ _ => rfl
  simp only [cellEffect, totalEffect, if_neg hc, hl, hs, policyDifference, zero_add, hp1, hp2, if_true, one_add_one_eq_two] at h6
  norm_num [policyEffect, secondPeriodPolicy, List.zipIdx, List.filter_cons] at h6
  linarith

end Ex
end Skill
