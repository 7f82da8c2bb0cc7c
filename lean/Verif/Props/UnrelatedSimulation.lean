import Verif.Props.FactorsSimulation
/- C122: simulated data of unrelated factors. -/
namespace Skill
open Matrix Spec MeasureTheory ProbabilityTheory

section
variable {m m' m2 : ModelDict ℝ} {fs : List String} {k : ℕ} {val : Loc → ℝ}

/-- Without policies the cells of the remaining factors are the same, also if the smaller model has fewer periods. -/
theorem plainCells_without (h : Without m fs m') (hm : LinearModel m k) (hm' : LinearModel m' k) (hna : m.anchoring = none) (hg : GoodNames m) (hinf : NoInfluence m k fs val) (custom custom' : String → CustomFn)
    (cov : Covariates) {e : ℕ} (he : e < k) (z : SimulationNoise → ℝ) (c : Cell m') : modelCells custom' m' val cov [] e z c = modelCells custom m val cov [] e z (cellWithAll h hna c) := by
  have hg' := h.goodNames hna hg
  cases c with
  | inl c =>
    obtain ⟨h1, h2⟩ := (h.isLatent _).mp ((mem_latents_iff m' _).mp c.2.2)
    show simulatedStates custom' m' val cov [] e z c.1.1 c.1.2 = simulatedStates custom m val cov [] e z c.1.1 c.1.2
    rw [linear_states hm' hg' custom' val cov e z c.1.1 c.2.2, linear_states hm hg custom val cov e z c.1.1 ((mem_latents_iff m _).mpr h1)]
    exact states_without h hm hna hg hinf cov he _ (h.periods _ c.2.1) h1 h2
  | inr c =>
    rw [linear_cells hm' hg' custom' val cov e z c]
    refine Eq.trans (measurement_without h hm hna hg hinf cov he _ c.2) ?_
    exact (linear_cells hm hg custom val cov e z ⟨c.1, _⟩).symm

theorem measurable_allCells {Ω : Type} {M : MeasurableSpace Ω} {G : Ω → Cell m → ℝ} (h : ∀ c, Measurable (fun ω => G ω c)) : Measurable G := measurable_pi_iff.mpr h

/-- The measurements and states of two models are independent if no random number matters for both. -/
theorem indep_cells {Ω : Type} [MeasurableSpace Ω] {P : Measure Ω} [IsProbabilityMeasure P] {E : Ω → Fin 1} {Z : SimulationNoise → Ω → ℝ} (hZ : RandomSimulationNoise P val E Z) (hm' : LinearModel m' 1) (hm2 : LinearModel m2 1)
    (hna' : m'.anchoring = none) (hna2 : m2.anchoring = none) (hg' : GoodNames m') (hg2 : GoodNames m2) (hdis : Disjoint (noiseIn m') (noiseIn m2)) (custom custom2 : String → CustomFn) (cov : Covariates) :
    IndepFun (fun ω => modelCells custom m' val cov [] (E ω) (fun j => Z j ω)) (fun ω => modelCells custom2 m2 val cov [] (E ω) (fun j => Z j ω)) P := by
  classical
  have hE : ∀ ω, E ω = 0 := fun ω => Subsingleton.elim _ _
  have hind := indep_iSup_of_disjoint (m := fun j => MeasurableSpace.comap (Z (.model j)) inferInstance) (fun j => (hZ.measurable (.model j)).comap_le) hZ.model.independent.iIndep hdis
  have key : ∀ {m' : ModelDict ℝ} (custom : String → CustomFn), LinearModel m' 1 → m'.anchoring = none → GoodNames m' →
      Measurable[⨆ j ∈ noiseIn m', MeasurableSpace.comap (Z (.model j)) inferInstance] (fun ω => modelCells custom m' val cov [] (E ω) (fun j => Z j ω)) := by
    intro m' custom hm' hna' hg'
    have hG : ∀ j, Measurable[⨆ j ∈ noiseIn m', MeasurableSpace.comap (Z (.model j)) inferInstance] (fun ω => if j ∈ noiseIn m' then Z (.model j) ω else 0) := by
      intro j
      by_cases hj : j ∈ noiseIn m'
      · simp only [if_pos hj]
        exact (comap_measurable (Z (.model j))).mono (le_iSup₂ (f := fun j (_ : j ∈ noiseIn m') => MeasurableSpace.comap (Z (.model j)) inferInstance) j hj) le_rfl
      · simp only [if_neg hj]
        exact measurable_const
    have hG' : @Measurable Ω (Noise → ℝ) (⨆ j ∈ noiseIn m', MeasurableSpace.comap (Z (.model j)) inferInstance) _ (fun ω j => if j ∈ noiseIn m' then Z (.model j) ω else 0) := measurable_noise hG
    refine measurable_allCells (fun c => ?_)
    cases c with
    | inl c =>
      have e : (fun ω => modelCells custom m' val cov [] (E ω) (fun j => Z j ω) (.inl c)) = (fun z : Noise → ℝ => latentStates m' val cov (0 : Fin 1) z c.1.1 c.1.2) ∘ fun ω j => if j ∈ noiseIn m' then Z (.model j) ω else 0 := by
        funext ω
        rw [hE, Function.comp_apply]
        show simulatedStates custom m' val cov [] _ _ c.1.1 c.1.2 = _
        rw [linear_states hm' hg' custom val cov _ _ c.1.1 c.2.2]
        exact states_noise hm' hna' hg' cov _ (fun j hj => by rw [if_pos hj]) _ ((mem_latents_iff m' _).mp c.2.2)
      rw [e]
      exact (measurable_states m' val cov _ _ _).comp hG'
    | inr c =>
      have e : (fun ω => modelCells custom m' val cov [] (E ω) (fun j => Z j ω) (.inr c)) = (fun z : Noise → ℝ => measurementValue m' val cov (0 : Fin 1) z c.1.1 c.1.2) ∘ fun ω j => if j ∈ noiseIn m' then Z (.model j) ω else 0 := by
        funext ω
        rw [hE, Function.comp_apply, linear_cells hm' hg' custom val cov _ _ c]
        exact measurement_noise hm' hna' hg' cov _ (fun j hj => by rw [if_pos hj]) c.2
      rw [e]
      exact (measurable_measurement m' val cov _ _ _).comp hG'
  exact indep_of_indep_of_le_right (indep_of_indep_of_le_left hind (key custom hm' hna' hg').comap_le) (key custom2 hm2 hna2 hg2).comap_le

/-- Unrelated groups of factors have no influence on each other, and no random number matters for both groups. -/
theorem unrelated_groups (hw : Without m fs m') (hw2 : Without m ((Dict.keys m.factors).filter (fun f => decide (f ∉ fs))) m2) (hna : m.anchoring = none) (hunr : Unrelated m fs val) :
    NoInfluence m 1 fs val ∧ NoInfluence m 1 ((Dict.keys m.factors).filter (fun f => decide (f ∉ fs))) val ∧ Disjoint (noiseIn m') (noiseIn m2) := by
  have hmem2 : ∀ f, IsLatent m f → (f ∈ (Dict.keys m.factors).filter (fun f => decide (f ∉ fs)) ↔ f ∉ fs) := by
    intro f hf
    have hf : f ∈ Dict.keys m.factors := (mem_latents_iff m f).mpr hf
    rw [List.mem_filter]
    simp [hf]
  have hlat : ∀ {t v f}, Measures m t v f → IsLatent m f := fun ⟨spec, hs, _⟩ => ⟨spec, hs⟩
  refine ⟨⟨fun e he f g hf hfs hgl hgs => ?_, fun t f g ht hf hfs hgl hgs => ?_, fun t v f g hf hfs hg' hgs => ?_⟩, ⟨fun e he f g hf hfs hgl hgs => ?_, fun t f g ht hf hfs hgl hgs => ?_, fun t v f g hf hfs hg' hgs => ?_⟩, ?_⟩
  · obtain rfl : e = 0 := by omega
    exact hunr.initial f g hf hgl (fun h => hfs (h.mpr hgs))
  · exact hunr.transition t f g ht hf hgl (fun h => hfs (h.mpr hgs))
  · exact absurd ((hunr.measurements t v f g hf hg').mpr hgs) hfs
  · obtain rfl : e = 0 := by omega
    rw [hmem2 f hf] at hfs
    rw [hmem2 g hgl] at hgs
    exact hunr.initial f g hf hgl (fun h => hfs (fun h' => hgs (h.mp h')))
  · rw [hmem2 f (by obtain ⟨spec, hs, _⟩ := hf; exact ⟨spec, hs⟩)] at hfs
    rw [hmem2 g hgl] at hgs
    exact hunr.transition t f g ht hf hgl (fun h => hfs (fun h' => hgs (h.mp h')))
  · rw [hmem2 f (hlat hf)] at hfs
    rw [hmem2 g (hlat hg')] at hgs
    exact absurd (fun h' => hgs ((hunr.measurements t v f g hf hg').mp h')) hfs
  · have hl : ∀ f, IsLatent m' f → ¬IsLatent m2 f := by
      intro f h1 h2
      rw [hw.isLatent] at h1
      rw [hw2.isLatent] at h2
      exact h2.2 ((hmem2 f h1.1).mpr h1.2)
    rw [Set.disjoint_left]
    rintro (f | ⟨t, f⟩ | ⟨t, v⟩) h1 h2
    · exact hl f h1 h2
    · exact hl f h1 h2
    · replace h1 : IsUpdate m' t v := h1
      replace h2 : IsUpdate m2 t v := h2
      rw [hw.isUpdate hna] at h1
      rw [hw2.isUpdate hna] at h2
      obtain ⟨f, hf, hfs⟩ := h1
      obtain ⟨g, hgm, hgs⟩ := h2
      rw [hmem2 g (hlat hgm), not_not] at hgs
      exact hfs ((hunr.measurements t v f g hf hgm).mpr hgs)

/-- **C122**: simulate a dataset for a model with two groups of factors that have nothing to do with each other, and datasets for the models with one group each (remove_factors and extract_factors). The joint law of the factors and
measurements of an individual in the first dataset is the product of the laws in the two others: both groups are independent and can be simulated separately. Individuals are independent. -/
theorem C122_simulation {root root' root2 : NormalRoot} (hroot : ValidRoot root) (hroot' : ValidRoot root') (hroot2 : ValidRoot root2) {pm pm' pm2 : Processed ℝ} (hpm : processModel m = .ok pm) (hpm' : processModel m' = .ok pm')
    (hpm2 : processModel m2 = .ok pm2) (hrem : removeFactors fs m = .ok m') (hext : extractFactors fs m = .ok m2) (hm : LinearModel m 1) (hm' : LinearModel m' 1) (hm2 : LinearModel m2 1) (hna : m.anchoring = none) (hsm : SimulationModel m 1)
    (hv : ProperValues m 1 val) (hunr : Unrelated m fs val) (custom custom' custom2 : String → CustomFn) (nan nan' nan2 : ℝ) {params params' params2 : List (Loc × ℝ)} (hparams : HasParams m params val) (hparams' : HasParams m' params' val)
    (hparams2 : HasParams m2 params2 val) {nObs : Option Nat} {data : Option (LongData ℝ)} {n : ℕ} {cov : Nat → Covariates} (hi : Individuals m nObs data n cov) (hn : 0 < n)
    {Ω Ω' Ω2 : Type} [MeasurableSpace Ω] [MeasurableSpace Ω'] [MeasurableSpace Ω2] {P : Measure Ω} {P' : Measure Ω'} {P2 : Measure Ω2} [IsProbabilityMeasure P] [IsProbabilityMeasure P'] [IsProbabilityMeasure P2]
    {E : Nat → Ω → Fin 1} {Z : Nat → Draw → Ω → ℝ} {E' : Nat → Ω' → Fin 1} {Z' : Nat → Draw → Ω' → ℝ} {E2 : Nat → Ω2 → Fin 1} {Z2 : Nat → Draw → Ω2 → ℝ} (hZ : RandomDatasetDraws P val E Z) (hZ' : RandomDatasetDraws P' val E' Z')
    (hZ2 : RandomDatasetDraws P2 val E2 Z2) :
    ∃ (out : Ω → SimulatedDataset) (out' : Ω' → SimulatedDataset) (out2 : Ω2 → SimulatedDataset) (X : Nat → Ω → Cell m → ℝ) (X' : Nat → Ω' → Cell m' → ℝ) (X2 : Nat → Ω2 → Cell m2 → ℝ),
      (∀ ω, simulateDataset root custom nan m params nObs data [] (drawsWith (fun i => E i ω) (fun i j => Z i j ω)) = .ok (out ω) ∧ DatasetIs m val n (fun i => X i ω) (out ω)) ∧
      (∀ ω, simulateDataset root' custom' nan' m' params' nObs data [] (drawsWith (fun i => E' i ω) (fun i j => Z' i j ω)) = .ok (out' ω) ∧ DatasetIs m' val n (fun i => X' i ω) (out' ω)) ∧
      (∀ ω, simulateDataset root2 custom2 nan2 m2 params2 nObs data [] (drawsWith (fun i => E2 i ω) (fun i j => Z2 i j ω)) = .ok (out2 ω) ∧ DatasetIs m2 val n (fun i => X2 i ω) (out2 ω)) ∧
      iIndepFun X P ∧ iIndepFun X' P' ∧ iIndepFun X2 P2 ∧
      ∀ i < n, P.map (fun ω => ((fun c => X i ω (cellWithAll (without_removeFactors hrem) hna c) : Cell m' → ℝ), (fun c => X i ω (cellWithAll (without_removeFactors hext) hna c) : Cell m2 → ℝ))) = (P'.map (X' i)).prod (P2.map (X2 i)) := by
  have hw := without_removeFactors hrem
  have hw2 : Without m ((Dict.keys m.factors).filter (fun f => decide (f ∉ fs))) m2 := without_removeFactors hext
  obtain ⟨hinf, hinf2, hdis⟩ := unrelated_groups hw hw2 hna hunr
  have hg := hsm.names
  have hg' := hw.goodNames hna hg
  have hg2 := hw2.goodNames hna hg
  have hv' := hw.properValues hna hv
  have hv2 := hw2.properValues hna hv
  obtain ⟨out, X, h1, h2, h3, h4⟩ := C91_simulation_law root hpm hsm custom nan (linear_simulationValues hm hg custom hv) hparams hi hn hroot (linear_measurableCustom hm hg custom) hZ
  obtain ⟨out', X', h1', h2', h3', h4'⟩ := C91_simulation_law root' hpm' (simulationModel_without hw hna hsm hm') custom' nan' (linear_simulationValues hm' hg' custom' hv') hparams' (individuals_without hw hna hi) hn hroot'
    (linear_measurableCustom hm' hg' custom') hZ'
  obtain ⟨out2, X2, h12, h22, h32, h42⟩ := C91_simulation_law root2 hpm2 (simulationModel_without hw2 hna hsm hm2) custom2 nan2 (linear_simulationValues hm2 hg2 custom2 hv2) hparams2 (individuals_without hw2 hna hi) hn hroot2
    (linear_measurableCustom hm2 hg2 custom2) hZ2
  refine ⟨out, out', out2, X, X', X2, h1, h1', h12, h3, h3', h32, fun i hil => ?_⟩
  obtain ⟨Ω₀, _, P₀, E₀, Z₀, hP₀, hZ₀⟩ := exists_simulationNoise (k := 1) (fun e he => (hv.positive e he).le) hv.sum
  have hX := h4 i hil P₀ E₀ Z₀ hZ₀
  have hX' := h4' i hil P₀ E₀ Z₀ hZ₀
  have hX2 := h42 i hil P₀ E₀ Z₀ hZ₀
  have hae : ∀ {A Ω₁ : Type} [MeasurableSpace A] [MeasurableSpace Ω₁] {P₁ : Measure Ω₁} [IsProbabilityMeasure P₁] {Y : Ω₁ → A} {g : Ω₀ → A}, Measurable Y → P₁.map Y = P₀.map g → AEMeasurable g P₀ := by
    intro A Ω₁ _ _ P₁ _ Y g hY hX
    by_contra hno
    rw [Measure.map_of_not_aemeasurable hno] at hX
    have : IsProbabilityMeasure (P₁.map Y) := Measure.isProbabilityMeasure_map hY.aemeasurable
    rw [hX] at this
    have h0 := this.measure_univ
    rw [Measure.coe_zero, Pi.zero_apply] at h0
    exact zero_ne_one h0
  have a1 := hae (h2 i) hX
  have a2 := hae (h2' i) hX'
  have a3 := hae (h22 i) hX2
  have hmeas : Measurable (fun x : Cell m → ℝ => ((fun c => x (cellWithAll hw hna c) : Cell m' → ℝ), (fun c => x (cellWithAll hw2 hna c) : Cell m2 → ℝ))) :=
    (measurable_pi_iff.mpr (fun c => measurable_pi_apply (X := fun _ : Cell m => ℝ) (cellWithAll hw hna c))).prodMk (measurable_pi_iff.mpr (fun c => measurable_pi_apply (X := fun _ : Cell m => ℝ) (cellWithAll hw2 hna c)))
  have hind := indep_cells hZ₀ hm' hm2 (hw.anchoring hna) (hw2.anchoring hna) hg' hg2 hdis custom' custom2 (cov i)
  rw [hX', hX2, ← (indepFun_iff_map_prod_eq_prod_map_map a2 a3).mp hind]
  refine (Measure.map_map hmeas (h2 i)).symm.trans ?_
  rw [hX, AEMeasurable.map_map_of_aemeasurable hmeas.aemeasurable a1]
  congr 1
  funext ω
  refine Prod.ext (funext (fun c => ?_)) (funext (fun c => ?_))
  · exact (plainCells_without hw hm hm' hna hg hinf custom custom' (cov i) (E₀ ω).isLt _ c).symm
  · exact (plainCells_without hw2 hm hm2 hna hg hinf2 custom custom2 (cov i) (E₀ ω).isLt _ c).symm

end
end Skill
