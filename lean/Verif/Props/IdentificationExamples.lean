import Verif.Props.Identification

/-! Example for C119. -/

namespace Skill
open Matrix MeasureTheory ProbabilityTheory Spec
open scoped Topology
namespace Ex

section
variable {s : String}

/-- Two factors with three measurements of their own, and a measurement of both factors. The first factor has a linear transition function, the transition function of the second one is `s`. -/
noncomputable def identModelWith (s : String) : ModelDict ℝ where
  factors := [("a", { measurements := [["y1", "y2", "y3", "c"], ["y1", "y2", "y3", "c"]], transition := .named "linear", normalizations := some { loadings := some [[("y1", 1)], [("y1", 1)]], intercepts := some [[("y1", 0)], [("y1", 0)]] } }),
              ("b", { measurements := [["w1", "w2", "w3", "c"], ["w1", "w2", "w3", "c"]], transition := .named s, normalizations := some { loadings := some [[("w1", 1)], [("w1", 1)]], intercepts := some [[("w1", 0)], [("w1", 0)]] } })]
  estimationOptions := some { clippingLowerBound := some none }

theorem identWith_loadings {t : ℕ} {f v : String} {x : ℝ} : IsLoadingNorm (identModelWith s) t f v x ↔ t < 2 ∧ x = 1 ∧ (f = "a" ∧ v = "y1" ∨ f = "b" ∧ v = "w1") := by
  constructor
  · rintro ⟨spec, hmem, ns, ls, d, h1, h2, h3, h4⟩
    simp only [identModelWith, List.mem_cons, Prod.mk.injEq, List.not_mem_nil, or_false] at hmem
    rcases hmem with ⟨rfl, rfl⟩ | ⟨rfl, rfl⟩ <;> obtain rfl := Option.some.inj h1 <;> obtain rfl := Option.some.inj h2 <;> rcases t with _ | _ | t <;> simp at h3 <;> subst h3 <;> simp at h4 <;> obtain ⟨rfl, rfl⟩ := h4 <;> norm_num
  · rintro ⟨ht, rfl, ⟨rfl, rfl⟩ | ⟨rfl, rfl⟩⟩
    · obtain rfl | rfl : t = 0 ∨ t = 1 := by omega
      · exact ⟨_, List.mem_cons_self, _, _, _, rfl, rfl, rfl, List.mem_cons_self⟩
      · exact ⟨_, List.mem_cons_self, _, _, _, rfl, rfl, rfl, List.mem_cons_self⟩
    · obtain rfl | rfl : t = 0 ∨ t = 1 := by omega
      · exact ⟨_, List.mem_cons_of_mem _ List.mem_cons_self, _, _, _, rfl, rfl, rfl, List.mem_cons_self⟩
      · exact ⟨_, List.mem_cons_of_mem _ List.mem_cons_self, _, _, _, rfl, rfl, rfl, List.mem_cons_self⟩

theorem identWith_intercepts {t : ℕ} {f v : String} {x : ℝ} : IsInterceptNorm (identModelWith s) t f v x ↔ t < 2 ∧ x = 0 ∧ (f = "a" ∧ v = "y1" ∨ f = "b" ∧ v = "w1") := by
  constructor
  · rintro ⟨spec, hmem, ns, ls, d, h1, h2, h3, h4⟩
    simp only [identModelWith, List.mem_cons, Prod.mk.injEq, List.not_mem_nil, or_false] at hmem
    rcases hmem with ⟨rfl, rfl⟩ | ⟨rfl, rfl⟩ <;> obtain rfl := Option.some.inj h1 <;> obtain rfl := Option.some.inj h2 <;> rcases t with _ | _ | t <;> simp at h3 <;> subst h3 <;> simp at h4 <;> obtain ⟨rfl, rfl⟩ := h4 <;> norm_num
  · rintro ⟨ht, rfl, ⟨rfl, rfl⟩ | ⟨rfl, rfl⟩⟩
    · obtain rfl | rfl : t = 0 ∨ t = 1 := by omega
      · exact ⟨_, List.mem_cons_self, _, _, _, rfl, rfl, rfl, List.mem_cons_self⟩
      · exact ⟨_, List.mem_cons_self, _, _, _, rfl, rfl, rfl, List.mem_cons_self⟩
    · obtain rfl | rfl : t = 0 ∨ t = 1 := by omega
      · exact ⟨_, List.mem_cons_of_mem _ List.mem_cons_self, _, _, _, rfl, rfl, rfl, List.mem_cons_self⟩
      · exact ⟨_, List.mem_cons_of_mem _ List.mem_cons_self, _, _, _, rfl, rfl, rfl, List.mem_cons_self⟩

theorem identWith_measures (t : ℕ) (v f : String) : Measures (identModelWith s) t v f ↔ t < 2 ∧ (f = "a" ∧ v ∈ ["y1", "y2", "y3", "c"] ∨ f = "b" ∧ v ∈ ["w1", "w2", "w3", "c"]) := by
  simp only [Measures, identModelWith, List.mem_cons (a := (f, _)), Prod.mk.injEq, List.not_mem_nil (a := (f, _)), or_false]
  constructor
  · rintro ⟨spec, ⟨rfl, rfl⟩ | ⟨rfl, rfl⟩, ms, h1, h2⟩ <;> rcases t with _ | _ | t <;> simp at h1 <;> subst h1 <;> simpa using h2
  · rintro ⟨ht, ⟨rfl, hv⟩ | ⟨rfl, hv⟩⟩
    · obtain rfl | rfl : t = 0 ∨ t = 1 := by omega
      · exact ⟨_, Or.inl ⟨rfl, rfl⟩, _, rfl, hv⟩
      · exact ⟨_, Or.inl ⟨rfl, rfl⟩, _, rfl, hv⟩
    · obtain rfl | rfl : t = 0 ∨ t = 1 := by omega
      · exact ⟨_, Or.inr ⟨rfl, rfl⟩, _, rfl, hv⟩
      · exact ⟨_, Or.inr ⟨rfl, rfl⟩, _, rfl, hv⟩

theorem identWith_latent (f : String) : IsLatent (identModelWith s) f ↔ f = "a" ∨ f = "b" := by
  constructor
  · rintro ⟨spec, hmem⟩
    simp only [identModelWith, List.mem_cons, Prod.mk.injEq, List.not_mem_nil, or_false] at hmem
    rcases hmem with ⟨rfl, _⟩ | ⟨rfl, _⟩ <;> simp
  · rintro (rfl | rfl)
    · exact ⟨_, List.mem_cons_self⟩
    · exact ⟨_, List.mem_cons_of_mem _ List.mem_cons_self⟩

theorem identWith_nPeriods : IsNPeriods (identModelWith s) 2 := by
  refine ⟨⟨_, _, List.mem_cons_self, rfl⟩, ?_⟩
  intro f spec hmem
  simp only [identModelWith, List.mem_cons, Prod.mk.injEq, List.not_mem_nil, or_false] at hmem
  rcases hmem with ⟨rfl, rfl⟩ | ⟨rfl, rfl⟩ <;> exact le_refl 2

theorem identWith_period (t : ℕ) : IsPeriod (identModelWith s) t ↔ t < 2 :=
  ⟨fun ⟨n, hn, ht⟩ => by rwa [IsNPeriods.unique identWith_nPeriods hn], fun h => ⟨2, identWith_nPeriods, h⟩⟩

theorem identWith_update (t : ℕ) (v : String) (h : IsUpdate (identModelWith s) t v) : v ∈ ["y1", "y2", "y3", "w1", "w2", "w3", "c"] := by
  rcases h with ⟨f, hf⟩ | ⟨_, f, o, ⟨a, ⟨⟩, _⟩, _⟩
  rw [identWith_measures] at hf
  simp only [List.mem_cons, List.not_mem_nil, or_false] at hf ⊢
  tauto

theorem identWith_ok (hs : s = "linear" ∨ s = "constant") : ∃ pm, processModel (identModelWith s) = .ok pm := by
  rw [C02_accepts_iff]
  have hmeas : ∀ {t f v} {spec : FactorSpec ℝ}, t < 2 → (f, spec) ∈ (identModelWith s).factors → f = "a" ∧ v = "y1" ∨ f = "b" ∧ v = "w1" → ∃ ms, spec.measurements[t]? = some ms ∧ v ∈ ms := by
    intro t f v spec ht hmem h
    simp only [identModelWith, List.mem_cons, Prod.mk.injEq, List.not_mem_nil, or_false] at hmem
    obtain rfl | rfl : t = 0 ∨ t = 1 := by omega
    all_goals
      rcases h with ⟨rfl, rfl⟩ | ⟨rfl, rfl⟩ <;> rcases hmem with ⟨h, rfl⟩ | ⟨h, rfl⟩ <;> first | (exact absurd h (by decide)) | exact ⟨_, rfl, by simp⟩
  refine ⟨by simp [identModelWith], rfl, ⟨?_, ?_, ?_, ?_⟩, ?_, ?_⟩
  · intro n hn
    rw [IsNPeriods.unique hn identWith_nPeriods]
    norm_num
  · rintro n sm _ ⟨⟩
  · intro f spec t v x hmem h
    obtain ⟨ht, rfl, h'⟩ := identWith_loadings.mp ⟨spec, hmem, h⟩
    exact ⟨one_ne_zero, hmeas ht hmem h'⟩
  · intro f spec t v x hmem h
    obtain ⟨ht, _, h'⟩ := identWith_intercepts.mp ⟨spec, hmem, h⟩
    exact hmeas ht hmem h'
  · intro f spec hmem
    simp only [identModelWith, List.mem_cons, Prod.mk.injEq, List.not_mem_nil, or_false] at hmem
    rcases hmem with ⟨rfl, rfl⟩ | ⟨rfl, rfl⟩
    · simp [ValidTransition]
    · rcases hs with rfl | rfl <;> simp [ValidTransition]
  · intro f spec ns n hmem hs hper
    rw [IsNPeriods.unique hper identWith_nPeriods]
    simp only [identModelWith, List.mem_cons, Prod.mk.injEq, List.not_mem_nil, or_false] at hmem
    rcases hmem with ⟨rfl, rfl⟩ | ⟨rfl, rfl⟩ <;> obtain rfl := Option.some.inj hs <;> refine ⟨fun ls h => ?_, fun ls h => ?_⟩ <;> obtain rfl := Option.some.inj h <;> exact le_rfl

theorem identWith_names : GoodNames (identModelWith s) where
  keys := ⟨(by decide : (["a", "b"] : List String).Nodup), by rintro a os ⟨⟩⟩
  distinct := (by decide : (["a", "b"] : List String).Nodup)
  controls := (by decide : (["constant"] : List String).Nodup)
  chars := (by decide : ∀ f ∈ ["a", "b"], '-' ∉ f.toList ∧ ' ' ∉ f.toList)
  reserved := (by decide : ∀ f ∈ ["a", "b"], f ≠ "constant" ∧ f ≠ "phi" ∧ f ≠ "tfp" ∧ ∀ g ∈ ["a", "b"], f ≠ "sigma_" ++ g)
  registered := by
    intro f spec fn ps hmem hs
    simp only [identModelWith, List.mem_cons, Prod.mk.injEq, List.not_mem_nil, or_false] at hmem
    rcases hmem with ⟨rfl, rfl⟩ | ⟨rfl, rfl⟩ <;> simp at hs

theorem identWith_linear (hs : s = "linear" ∨ s = "constant") : LinearModel (identModelWith s) 1 where
  anchoring := ⟨⟨by rintro f o ⟨a, ⟨⟩, _⟩, by rintro v f t g ⟨o, ⟨a, ⟨⟩, _⟩, _⟩, by rintro v f g ⟨o, ⟨a, ⟨⟩, _⟩, _⟩⟩, by rintro a os ⟨⟩, noNameClash_of_none rfl⟩
  periods := (identWith_period 1).mpr (by norm_num)
  measured := fun t ht => ⟨"c", "b", (identWith_measures t "c" "b").mpr ⟨(identWith_period t).mp ht, by simp⟩⟩
  transitions := by
    intro f spec hmem
    simp only [identModelWith, List.mem_cons, Prod.mk.injEq, List.not_mem_nil, or_false] at hmem
    rcases hmem with ⟨rfl, rfl⟩ | ⟨rfl, rfl⟩
    · simp
    · rcases hs with rfl | rfl <;> simp
  mixture := ⟨_, rfl, Or.inr ⟨rfl, rfl⟩⟩
  single := Or.inl rfl

theorem identWith_simulation (hs : s = "linear" ∨ s = "constant") : SimulationModel (identModelWith s) 1 where
  names := identWith_names
  anchoring := (identWith_linear hs).anchoring
  safe := fun f hf => by
    rcases (identWith_latent f).mp hf with rfl | rfl <;> decide
  columns := by
    rintro f (hf | ⟨t, hf⟩)
    · rcases (identWith_latent f).mp hf with rfl | rfl <;> decide
    · have := identWith_update t f hf
      simp only [List.mem_cons, List.not_mem_nil, or_false] at this
      rcases this with rfl | rfl | rfl | rfl | rfl | rfl | rfl <;> decide
  periods := (identWith_linear hs).periods
  updates := fun t ht => ⟨"c", Or.inl ⟨"b", (identWith_measures t "c" "b").mpr ⟨(identWith_period t).mp ht, by simp⟩⟩⟩
  mixture := (identWith_linear hs).mixture
  elements := one_ne_zero

theorem identWith_own {val : Loc → ℝ} (hval : ∀ t v f, v ∉ ["y1", "w1"] → val ⟨.loadings, t, v, f⟩ ≠ 0) : HasOwnMeasurements (identModelWith s) val := by
  intro t f ht hf
  have ht := (identWith_period t).mp ht
  rcases (identWith_latent f).mp hf with rfl | rfl
  · refine ⟨"y1", "y2", "y3", by decide, by decide, by decide, fun g => ?_, fun g => ?_, fun g => ?_, ⟨1, one_ne_zero, identWith_loadings.mpr ⟨ht, rfl, by simp⟩⟩, ⟨"a", 0, identWith_intercepts.mpr ⟨ht, rfl, by simp⟩⟩, ?_, ?_⟩
    · rw [identWith_measures]; simp [ht]
    · rw [identWith_measures]; simp [ht]
    · rw [identWith_measures]; simp [ht]
    · exact hval _ _ _ (by simp)
    · exact hval _ _ _ (by simp)
  · refine ⟨"w1", "w2", "w3", by decide, by decide, by decide, fun g => ?_, fun g => ?_, fun g => ?_, ⟨1, one_ne_zero, identWith_loadings.mpr ⟨ht, rfl, by simp⟩⟩, ⟨"b", 0, identWith_intercepts.mpr ⟨ht, rfl, by simp⟩⟩, ?_, ?_⟩
    · rw [identWith_measures]; simp [ht]
    · rw [identWith_measures]; simp [ht]
    · rw [identWith_measures]; simp [ht]
    · exact hval _ _ _ (by simp)
    · exact hval _ _ _ (by simp)

end

/-- A model with a linear and a constant factor. -/
noncomputable abbrev identModel : ModelDict ℝ := identModelWith "constant"

/-- The smallest admissible value of each parameter: normalized parameters are known, standard deviations are positive. -/
noncomputable def identLower (l : Loc) : ℝ :=
  if l.cat = .mixtureWeights ∨ l.cat = .loadings ∧ l.name1 ∈ ["y1", "w1"] then 1
  else if l.cat = .controls ∧ l.name1 ∈ ["y1", "w1"] ∨ l.cat = .shockSds ∧ l.name1 = "b" then 0
  else if l.cat = .measSds ∨ l.cat = .shockSds ∨ l.cat = .initialCholcovs ∧ l.name2 ∈ ["a-a", "b-b"] then 1 / 10
  else -10

/-- The largest admissible value of each parameter. -/
noncomputable def identUpper (l : Loc) : ℝ :=
  if l.cat = .mixtureWeights ∨ l.cat = .loadings ∧ l.name1 ∈ ["y1", "w1"] then 1
  else if l.cat = .controls ∧ l.name1 ∈ ["y1", "w1"] ∨ l.cat = .shockSds ∧ l.name1 = "b" then 0
  else 10

/-- The true values. -/
noncomputable def identValues (l : Loc) : ℝ :=
  if l.cat = .mixtureWeights ∨ l.cat = .loadings ∧ l.name1 ∈ ["y1", "w1"] then 1
  else if l.cat = .controls ∧ l.name1 ∈ ["y1", "w1"] ∨ l.cat = .shockSds ∧ l.name1 = "b" then 0
  else 1 / 2

def identRange : Set (Loc → ℝ) := Set.univ.pi (fun l => Set.Icc (identLower l) (identUpper l))

theorem identRange_compact : IsCompact identRange := isCompact_univ_pi (fun _ => isCompact_Icc)

theorem identRange_true : identValues ∈ identRange := by
  intro l _
  simp only [identLower, identUpper, identValues]
  split_ifs <;> norm_num

theorem identRange_weight {val : Loc → ℝ} (h : val ∈ identRange) (a b : String) (t : ℕ) : val ⟨.mixtureWeights, t, a, b⟩ = 1 := by
  have := h ⟨.mixtureWeights, t, a, b⟩ (Set.mem_univ _)
  simp only [identLower, identUpper, true_or, if_true] at this
  exact le_antisymm this.2 this.1

theorem identRange_proper (val : Loc → ℝ) (h : val ∈ identRange) : ProperValues identModel 1 val where
  positive e he := by
    rw [identRange_weight h]
    exact one_pos
  sum := by simp [identRange_weight h]
  sds t v _ := by
    have := (h ⟨.measSds, t, v, "-"⟩ (Set.mem_univ _)).1
    simp [identLower] at this
    norm_num at this
    linarith
  scales t f _ := by simp [anchorScale, outcome, identModelWith]

theorem identRange_normalized (val : Loc → ℝ) (h : val ∈ identRange) : Normalized identModel val where
  loadings t v f x hn := by
    obtain ⟨_, rfl, hv⟩ := identWith_loadings.mp hn
    have := h ⟨.loadings, t, v, f⟩ (Set.mem_univ _)
    have hv : v ∈ ["y1", "w1"] := by rcases hv with ⟨_, rfl⟩ | ⟨_, rfl⟩ <;> simp
    simp only [identLower, identUpper, hv, and_self, or_true, if_true] at this
    exact le_antisymm this.2 this.1
  intercepts t v f x hn := by
    obtain ⟨_, rfl, hv⟩ := identWith_intercepts.mp hn
    have := h ⟨.controls, t, v, "constant"⟩ (Set.mem_univ _)
    have hv : v ∈ ["y1", "w1"] := by rcases hv with ⟨_, rfl⟩ | ⟨_, rfl⟩ <;> simp
    simp only [identLower, identUpper, hv, reduceCtorEq, false_and, or_false, if_false, and_self, if_true] at this
    exact le_antisymm this.2 this.1
  measSds t v _ := by
    have := (h ⟨.measSds, t, v, "-"⟩ (Set.mem_univ _)).1
    simp [identLower] at this
    norm_num at this
    linarith
  shockSds t f _ _ := by
    have := (h ⟨.shockSds, t, f, "-"⟩ (Set.mem_univ _)).1
    by_cases hf : f = "b"
    · simpa [identLower, hf] using this
    · simp [identLower, hf] at this
      norm_num at this
      linarith
  diagonal f hf := by
    have := (h ⟨.initialCholcovs, 0, Spec.mixtureName 0, f ++ "-" ++ f⟩ (Set.mem_univ _)).1
    rcases (identWith_latent f).mp hf with rfl | rfl <;> simp [identLower] at this ⊢ <;> exact le_trans (by norm_num) this

theorem identModel_own : HasOwnMeasurements identModel identValues := identWith_own (fun t v f hv => by
  simp only [List.mem_cons, List.not_mem_nil, or_false, not_or] at hv
  simp [identValues, hv])

theorem identModel_notCollinear : NotCollinear identModel identValues where
  start f hf := by
    rcases (identWith_latent f).mp hf with rfl | rfl <;> simp [identValues]
  shocks t f _ hf := by
    rcases (identWith_latent f).mp hf with rfl | rfl
    · right
      simp [identValues]
    · exact Or.inl ⟨_, List.mem_cons_of_mem _ List.mem_cons_self, rfl⟩

/-- C119 is not vacuous: all parameters of the example are estimated consistently, with bounds for standard deviations and all other parameters. -/
theorem C119_example (custom : String → CustomFn) (nan : ℝ) : ∃ (qr : QR) (root : NormalRoot) (params0 : List (Loc × ℝ)) (Ω : Type) (_ : MeasurableSpace Ω) (P : Measure Ω) (_ : IsProbabilityMeasure P)
    (E : Nat → Ω → Fin 1) (Z : Nat → Draw → Ω → ℝ), RandomDatasetDraws P identValues E Z ∧ ParamsWith identModel params0 identValues ∧
    ∀ᵐ ω ∂P, ∃ data : ℕ → SimulatedDataset, (∀ n ≥ 2, simulateDataset root custom nan identModel params0 (some n) none [] (drawsWith (fun i => E i ω) (fun i j => Z i j ω)) = .ok (data n)) ∧
      (∀ n ≥ 2, ∃ val, Maximizes (loglikeValue qr custom nan identModel (asDataset (data n).measurements)) identModel identRange val) ∧
      ∀ est : ℕ → Loc → ℝ, (∀ n ≥ 2, Maximizes (loglikeValue qr custom nan identModel (asDataset (data n).measurements)) identModel identRange (est n)) → ∀ l, IsParam identModel l →
        Filter.Tendsto (fun n => est n l) Filter.atTop (𝓝 (identValues l)) := by
  obtain ⟨qr, hqr⟩ := validQR
  obtain ⟨root, hroot⟩ := exists_validRoot
  obtain ⟨pm, hpm⟩ := (identWith_ok (Or.inr rfl))
  have hv := identRange_proper _ identRange_true
  obtain ⟨Ω, _, P, E, Z, hP, hZ⟩ := exists_datasetDraws (val := identValues) (k := 1) (fun e he => (hv.positive e he).le) hv.sum
  have hp := paramsWith hpm identWith_names identValues
  exact ⟨qr, root, _, Ω, _, P, hP, E, Z, hZ, hp, C119_consistent hqr hroot hpm (identWith_linear (Or.inr rfl)) (identWith_simulation (Or.inr rfl)) rfl rfl rfl (fun t v h => by
      have := identWith_update t v h
      rintro rfl
      simp at this)
    (by rintro o x ⟨⟩ ⟨⟩) ⟨_, rfl, rfl, Or.inl rfl⟩ custom nan identRange_compact identRange_proper identRange_normalized identRange_true identModel_own identModel_notCollinear _ hp P (fun _ => E) (fun _ => Z) (fun _ => hZ)⟩

end Ex
end Skill
