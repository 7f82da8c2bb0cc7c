import Verif.Props.RaisingPolicies
import Verif.Props.MovedSimulationExamples
/- Examples for C149. -/
namespace Skill
open Spec
namespace Ex

theorem anchoredModel_increasing : IncreasingValues anchoredModel linearValues := by
  refine ⟨fun t _ f o _ => ?_, fun t _ f spec h => ?_⟩
  · unfold linearValues
    rw [if_neg (by simp)]
    norm_num
  · simp only [anchoredModel, linearModel, List.mem_cons, Prod.mk.injEq, List.not_mem_nil, or_false] at h
    rcases h with ⟨rfl, rfl⟩ | ⟨rfl, rfl⟩
    · refine ⟨_, rfl, Or.inr (Or.inl ⟨rfl, fun g _ => ?_⟩)⟩
      unfold linearValues
      rw [if_neg (by simp)]
      norm_num
    · exact ⟨_, rfl, Or.inl rfl⟩

/-- C149 is not vacuous: in the model with one anchored factor, a second policy raises factor "b" by 3 in the first period. In the second period factor "a", which depends on "b", the measurement "y1" and the anchored factor do not fall,
for all three individuals. -/
theorem C149_example (root : NormalRoot) (custom : String → CustomFn) (nan : ℝ) : ∃ (params : List (Loc × ℝ)) (x x' : Nat → Cell anchoredModel → ℝ) (out out' : SimulatedDataset), HasParams anchoredModel params linearValues ∧
    simulateDataset root custom nan anchoredModel params none (some anchoredData) anchoredPolicies ones = .ok out ∧
    simulateDataset root custom nan anchoredModel params none (some anchoredData) (anchoredPolicies ++ [{ period := 0, factor := "b", effectSize := 3, standardDeviation := 0 }]) ones = .ok out' ∧
    DatasetIs anchoredModel linearValues 3 x out ∧ DatasetIs anchoredModel linearValues 3 x' out' ∧
    (∃ c : {p : Nat × String // IsPeriod anchoredModel p.1 ∧ p.2 ∈ Spec.latents anchoredModel}, c.1 = (1, "a") ∧ ∀ i < 3, x i (.inl c) ≤ x' i (.inl c) ∧ anchoredValue anchoredModel linearValues 1 "a" (x i (.inl c)) ≤ anchoredValue anchoredModel linearValues 1 "a" (x' i (.inl c))) ∧
    ∃ c : {p : Nat × String // IsUpdate anchoredModel p.1 p.2}, c.1 = (1, "y1") ∧ ∀ i < 3, x i (.inr c) ≤ x' i (.inr c) := by
  obtain ⟨pm, hpm, _⟩ := anchoredModel_ok
  obtain ⟨params, hp⟩ := exists_params hpm anchoredModel_names linearValues
  have ha : IsLatent anchoredModel "a" := ⟨_, List.mem_cons_self⟩
  have hb : IsLatent anchoredModel "b" := ⟨_, List.mem_cons_of_mem _ List.mem_cons_self⟩
  have hw : ∀ e, linearValues ⟨.mixtureWeights, 0, Spec.mixtureName e, "-"⟩ = 1 := fun e => if_pos rfl
  have hv : SimulationValues custom anchoredModel 1 linearValues anchoredPolicies := ⟨fun e _ => by rw [hw]; exact one_pos, by simp [hw], fun t _ => anchoredModel_usable custom _, fun p h _ => by
    simp only [anchoredPolicies, List.mem_cons, List.not_mem_nil, or_false] at h
    subst h
    exact ⟨ha, zero_le_one⟩⟩
  have hhalf : ∀ t v f, (0 : ℝ) ≤ linearValues ⟨.loadings, t, v, f⟩ := fun t v f => by
    unfold linearValues
    rw [if_neg (by simp)]
    norm_num
  obtain ⟨x, x', out, out', h1, h2, h3, h4, h5, h6⟩ := C149_raising_policies root hpm anchoredModel_simulation custom nan (C149_increasing custom anchoredModel_names anchoredModel_increasing) hv
    (extra := [{ period := 0, factor := "b", effectSize := 3, standardDeviation := 0 }]) (fun p h => by
      simp only [List.mem_cons, List.not_mem_nil, or_false] at h
      subst h
      exact ⟨by norm_num, rfl, hb⟩) hp (anchoredData_individuals none) (by norm_num) (draws := ones) (fun h => absurd rfl h)
  refine ⟨params, x, x', out, out', hp, h1, h2, h3, h4, ⟨⟨(1, "a"), anchoredModel_linear.periods, (mem_latents_iff _ _).mpr ha⟩, rfl, fun i hi => ⟨(h6 i hi _).1, (h6 i hi ⟨(1, "a"), anchoredModel_linear.periods, (mem_latents_iff _ _).mpr ha⟩).2 ?_⟩⟩,
    ⟨(1, "y1"), (anchoredModel_update 1 "y1").mpr ⟨by norm_num, by simp⟩⟩, rfl, fun i hi => h5 i hi _ (fun f _ => hhalf _ _ _)⟩
  show 0 ≤ anchorScale anchoredModel linearValues 1 "a"
  rw [(anchor_some anchoredModel_names.keys ((anchoredModel_anchoredIn "a" "q").mpr ⟨rfl, rfl⟩) linearValues 1).1]
  exact hhalf _ _ _

/-- Both CES functions. -/
noncomputable def raisingModel : ModelDict ℝ where
  factors := [("a", { measurements := [["y"], ["y"], ["y"]], transition := .named "log_ces" }), ("b", { measurements := [["w"], ["w"]], transition := .named "log_ces_general" })]

theorem raisingModel_names : GoodNames raisingModel where
  keys := ⟨by decide, by rintro a os ⟨⟩⟩
  distinct := by decide
  controls := by decide
  chars := by decide
  reserved := by decide
  registered := by
    intro f spec fn ps h
    simp only [raisingModel, List.mem_cons, Prod.mk.injEq, List.not_mem_nil, or_false] at h
    rcases h with ⟨rfl, rfl⟩ | ⟨rfl, rfl⟩ <;> simp

/-- Complements: phi is negative. For the other factor tfp and sigma are negative. -/
noncomputable def raisingValues (l : Loc) : ℝ := if l.name2 = "a" ∨ l.name2 = "b" then 1 / 2 else -1

/-- CES functions are increasing, for these values. -/
theorem C149_ces (custom : String → CustomFn) : IncreasingTransitions custom raisingModel raisingValues := by
  refine C149_increasing custom raisingModel_names ⟨fun t _ f o ha => by obtain ⟨a, h, _⟩ := ha; exact absurd h (by simp [raisingModel]), fun t _ f spec h => ?_⟩
  have hab : ∀ g ∈ allFactors raisingModel, g = "a" ∨ g = "b" := by decide
  have hs : ∀ g, IsLatent raisingModel g → raisingValues ⟨.transition, t, f, "sigma_" ++ g⟩ ≤ 0 := by
    intro g hg
    have : g = "a" ∨ g = "b" := hab g (List.mem_append_left _ ((mem_latents_iff _ _).mpr hg))
    rcases this with rfl | rfl
    · exact (if_neg (by decide : ¬("sigma_" ++ "a" = "a" ∨ "sigma_" ++ "a" = "b"))).le.trans (by norm_num)
    · exact (if_neg (by decide : ¬("sigma_" ++ "b" = "a" ∨ "sigma_" ++ "b" = "b"))).le.trans (by norm_num)
  have hw : ∀ g ∈ allFactors raisingModel, 0 < raisingValues ⟨.transition, t, f, g⟩ := fun g hg => by
    have : raisingValues ⟨.transition, t, f, g⟩ = 1 / 2 := if_pos (hab g hg)
    rw [this]
    norm_num
  have hp : raisingValues ⟨.transition, t, f, "phi"⟩ = -1 := if_neg (by decide : ¬("phi" = "a" ∨ "phi" = "b"))
  have ht : raisingValues ⟨.transition, t, f, "tfp"⟩ = -1 := if_neg (by decide : ¬("tfp" = "a" ∨ "tfp" = "b"))
  simp only [raisingModel, List.mem_cons, Prod.mk.injEq, List.not_mem_nil, or_false] at h
  rcases h with ⟨rfl, rfl⟩ | ⟨rfl, rfl⟩
  · exact ⟨_, rfl, Or.inr (Or.inr (Or.inl ⟨rfl, hw, by rw [hp]; norm_num⟩))⟩
  · exact ⟨_, rfl, Or.inr (Or.inr (Or.inr ⟨rfl, hw, Or.inr ⟨by rw [ht]; norm_num, hs⟩⟩))⟩

end Ex
end Skill
