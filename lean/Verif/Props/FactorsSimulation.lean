import Verif.Props.MeasurementsSimulation
import Verif.Props.Separation
import Verif.Props.SimulatedLikelihood
/- C121: simulated data of models with fewer factors. -/
namespace Skill
open Matrix Spec MeasureTheory ProbabilityTheory

section
variable {m m' : ModelDict ℝ} {fs : List String} {k : ℕ} {val : Loc → ℝ}

theorem next_without (h : Without m fs m') (hm : LinearModel m k) (hna : m.anchoring = none) (hg : GoodNames m) (hinf : NoInfluence m k fs val) (cov : Covariates) {t : ℕ} (ht : IsPeriod m (t + 1)) {s s' : String → ℝ}
    (hs : ∀ g, IsLatent m g → g ∉ fs → s' g = s g) {f : String} (hf : IsLatent m f) (hfs : f ∉ fs) : nextState m' val cov t s' f = nextState m val cov t s f := by
  rw [nextState_none hna, nextState_none (h.anchoring hna)]
  unfold nextAnchored
  have hmem' : ∀ g, g ∈ Spec.latents m' ↔ g ∈ Spec.latents m ∧ g ∉ fs := fun g => by rw [mem_latents_iff, mem_latents_iff, h.isLatent]
  have hstate : ∀ g, g ∈ Spec.latents m' → s' g = s g := fun g hgm => hs g ((mem_latents_iff m g).mp ((hmem' g).mp hgm).1) ((hmem' g).mp hgm).2
  by_cases hc : HasTransition m f "constant"
  · rw [if_pos hc, if_pos ((h.transitions f "constant").mpr ⟨hc, hfs⟩)]
    dsimp only
    rw [if_pos ((mem_latents_iff m f).mpr hf), if_pos ((hmem' f).mpr ⟨(mem_latents_iff m f).mpr hf, hfs⟩)]
    exact hs f hf hfs
  · rw [if_neg hc, if_neg (fun hc' => hc ((h.transitions f "constant").mp hc').1)]
    unfold linearValue linearTerms
    congr 1
    have hlin : HasTransition m f "linear" := by
      obtain ⟨spec, hs⟩ := hf
      rcases hm.transitions f spec hs with h1 | h1
      · exact ⟨spec, hs, h1⟩
      · exact absurd ⟨spec, hs, h1⟩ hc
    have hall : ∀ m : ModelDict ℝ, Spec.allFactors m = Spec.latents m ++ m.observedFactors.getD [] := fun _ => rfl
    have hdis : ∀ g ∈ m.observedFactors.getD [], g ∉ Spec.latents m := fun g hgo hgl => by
      have := hg.distinct
      rw [hall] at this
      exact List.disjoint_of_nodup_append this hgl hgo
    rw [hall, hall, h.observed, List.map_append, List.map_append, List.sum_append, List.sum_append, h.latents]
    congr 1
    · rw [← sum_filter_zero (fun f => decide (f ∉ fs)) (l := Spec.latents m)]
      · refine congrArg List.sum (List.map_congr_left (fun g hgm => ?_))
        obtain ⟨hg1, hg2⟩ := List.mem_filter.mp hgm
        have hgm' : g ∈ Spec.latents m' := by rw [h.latents]; exact hgm
        dsimp only
        rw [if_pos hgm, if_pos hg1, hstate g hgm']
      · intro g hgm hgf
        dsimp only
        rw [hinf.transition t f g ht hlin hfs ((mem_latents_iff m g).mp hgm) (by simpa using hgf), zero_mul]
    · refine congrArg List.sum (List.map_congr_left (fun g hgm => ?_))
      dsimp only
      rw [if_neg (hdis g hgm), if_neg (fun h' => hdis g hgm (List.mem_filter.mp h').1)]

theorem simulated_without (h : Without m fs m') (hm : LinearModel m k) (hm' : LinearModel m' k) (hna : m.anchoring = none) (hg : GoodNames m) (hper : ∀ t, IsPeriod m' t ↔ IsPeriod m t) (hinf : NoInfluence m k fs val) (custom : String → CustomFn)
    (cov : Covariates) (policies : List Policy) {e : ℕ} (he : e < k) (z : SimulationNoise → ℝ) {t : ℕ} (ht : IsPeriod m t) {f : String} (hf : IsLatent m f) (hfs : f ∉ fs) :
    simulatedStates custom m' val cov policies e z t f = simulatedStates custom m val cov policies e z t f := by
  have hg' := h.goodNames hna hg
  have hef : ∀ t f, effectOf m' policies z t f = effectOf m policies z t f := fun t f => by
    unfold effectOf
    rw [propext (hper (t + 1))]
  induction t generalizing f with
  | zero =>
    simp only [simulatedStates, hef]
    rw [start_without h hna hg hinf he _ hf hfs]
  | succ t ih =>
    have ht' : IsPeriod m t := by
      obtain ⟨n, hn, hlt⟩ := ht
      exact ⟨n, hn, by omega⟩
    simp only [simulatedStates, hef]
    rw [linear_next hm hg custom val cov t _ ((mem_latents_iff m f).mpr hf), linear_next hm' hg' custom val cov t _ ((mem_latents_iff m' f).mpr ((h.isLatent f).mpr ⟨hf, hfs⟩)),
      next_without h hm hna hg hinf cov ht (fun g hgl hgs => ih ht' hgl hgs) hf hfs]

/-- The cell of the model with all factors with the same period and the same name. -/
def cellWithAll (h : Without m fs m') (hna : m.anchoring = none) : Cell m' → Cell m
  | .inl c => .inl ⟨c.1, h.periods _ c.2.1, (mem_latents_iff m _).mpr ((h.isLatent _).mp ((mem_latents_iff m' _).mp c.2.2)).1⟩
  | .inr c => .inr ⟨c.1, Or.inl (by obtain ⟨f, hf, _⟩ := (h.isUpdate hna _ _).mp c.2; exact ⟨f, hf⟩)⟩

theorem cells_without (h : Without m fs m') (hm : LinearModel m k) (hm' : LinearModel m' k) (hna : m.anchoring = none) (hg : GoodNames m) (hper : ∀ t, IsPeriod m' t ↔ IsPeriod m t) (hinf : NoInfluence m k fs val) (custom : String → CustomFn)
    (cov : Covariates) (policies : List Policy) {e : ℕ} (he : e < k) (z : SimulationNoise → ℝ) (c : Cell m') :
    modelCells custom m' val cov policies e z c = modelCells custom m val cov policies e z (cellWithAll h hna c) := by
  cases c with
  | inl c =>
    obtain ⟨h1, h2⟩ := (h.isLatent _).mp ((mem_latents_iff m' _).mp c.2.2)
    exact simulated_without h hm hm' hna hg hper hinf custom cov policies he z (h.periods _ c.2.1) h1 h2
  | inr c =>
    obtain ⟨⟨t, v⟩, hu⟩ := c
    show measurementWith m' val cov _ _ t v = measurementWith m val cov _ _ t v
    obtain ⟨f0, hf0, hfs0⟩ := (h.isUpdate hna t v).mp hu
    have ht : IsPeriod m t := update_period hm t v (Or.inl ⟨f0, hf0⟩)
    unfold measurementWith
    rw [h.controls]
    congr 2
    rw [h.latents, ← sum_filter_zero (fun f => decide (f ∉ fs)) (l := Spec.latents m)]
    · refine congrArg List.sum (List.map_congr_left (fun g hgm => ?_))
      obtain ⟨hg1, hg2⟩ := List.mem_filter.mp hgm
      have hgfs : g ∉ fs := by simpa using hg2
      have hiff : (Measures m' t v g ∨ Anchors m' v g) ↔ (Measures m t v g ∨ Anchors m v g) := by
        rw [h.measures]
        simp [no_anchors hna, no_anchors (h.anchoring hna), hgfs]
      rw [simulated_without h hm hm' hna hg hper hinf custom cov policies he z ht ((mem_latents_iff m g).mp hg1) hgfs]
      by_cases hc : Measures m t v g ∨ Anchors m v g
      · rw [if_pos hc, if_pos (hiff.mpr hc)]
      · rw [if_neg hc, if_neg (fun h' => hc (hiff.mp h'))]
    · intro g hgm hgf
      split_ifs with hc
      · rw [hinf.loadings t v f0 g hf0 hfs0 (hc.resolve_right (no_anchors hna v g)) (by simpa using hgf), zero_mul]
      · rfl

theorem simulationModel_without (h : Without m fs m') (hna : m.anchoring = none) (hm : SimulationModel m k) (hm' : LinearModel m' k) : SimulationModel m' k where
  names := h.goodNames hna hm.names
  anchoring := hm'.anchoring
  safe f hf := hm.safe f ((h.isLatent f).mp hf).1
  columns f hf := hm.columns f (hf.imp (fun h' => ((h.isLatent f).mp h').1) (fun ⟨t, ht⟩ => by
    obtain ⟨g, hg, _⟩ := (h.isUpdate hna t f).mp ht
    exact ⟨t, Or.inl ⟨g, hg⟩⟩))
  periods := hm'.periods
  updates t ht := by
    obtain ⟨v, f, hf⟩ := hm'.measured t ht
    exact ⟨v, Or.inl ⟨f, hf⟩⟩
  mixture := hm'.mixture
  elements := hm.elements

theorem individuals_without (h : Without m fs m') (hna : m.anchoring = none) {nObs : Option Nat} {data : Option (LongData ℝ)} {n : ℕ} {cov : Nat → Covariates} (hi : Individuals m nObs data n cov) : Individuals m' nObs data n cov := by
  have hna' := h.anchoring hna
  have hvar : ∀ (df : LongData ℝ) c, HasVariable m df c → HasVariable m' df c := by
    rintro df c (hc | hc | ⟨f, hf⟩)
    · exact Or.inl hc
    · exact Or.inr (Or.inl hc)
    · exact absurd hf (no_anchors hna c f)
  cases hi with
  | @ofData _ df ids pers _ h1 h2 h3 h4 h5 h6 =>
    have hvalue : ∀ i t c v, HasValue m' df ids pers i t c v ↔ HasValue m df ids pers i t c v := by
      intro i t c v
      unfold HasValue
      simp only [valueIs_none hna, valueIs_none hna']
    refine .ofData h1 h2 h3 h4 ⟨h5.keys, ?_, fun t ht c hc => ?_, fun t v hv => ?_, fun t ht f hf => ?_⟩ (fun i hil t ht => ?_)
    · rintro f o ⟨a, ha, _⟩
      rw [hna'] at ha
      cases ha
    · obtain ⟨a1, a2⟩ := h5.controls t (h.periods t ht) c (h.controls ▸ hc)
      refine ⟨hvar df c a1, ?_⟩
      simpa only [hvalue] using a2
    · obtain ⟨f, hf, _⟩ := (h.isUpdate hna t v).mp hv
      exact hvar df v (h5.measurements t v (Or.inl ⟨f, hf⟩))
    · obtain ⟨a1, a2⟩ := h5.observed t (h.periods t ht) f (h.observed ▸ hf)
      refine ⟨hvar df f a1, ?_⟩
      simpa only [hvalue] using a2
    · obtain ⟨r, hr, hr1, hr2⟩ := h6 i hil t (h.periods t ht)
      refine ⟨r, hr, fun c hc => ?_, fun f hf => ?_⟩
      · rw [valueIs_none hna']
        exact (valueIs_none hna _ _ _).mp (hr1 c (h.controls ▸ hc))
      · rw [valueIs_none hna']
        exact (valueIs_none hna _ _ _).mp (hr2 f (h.observed ▸ hf))
  | ofNumber h1 h2 h3 => exact .ofNumber (h.controls ▸ h1) (h.observed ▸ h2) h3

/-- **C121**: simulate a dataset for a model with linear or constant transition functions and for the model without some factors (as returned by remove_factors), with the same parameters. If the removed factors have no influence on the
others, then the remaining factors and their measurements have the same joint law in both datasets, for all individuals and periods. Policies affect the remaining factors. -/
theorem C121_simulation {root root' : NormalRoot} (hroot : ValidRoot root) (hroot' : ValidRoot root') {pm pm' : Processed ℝ} (hpm : processModel m = .ok pm) (hrem : removeFactors fs m = .ok m') (hpm' : processModel m' = .ok pm') (hm : LinearModel m k)
    (hm' : LinearModel m' k) (hna : m.anchoring = none) (hsm : SimulationModel m k) (hper : ∀ t, IsPeriod m t → IsPeriod m' t) (hv : ProperValues m k val) (hinf : NoInfluence m k fs val) (custom custom' : String → CustomFn) (nan nan' : ℝ) {policies : List Policy}
    (hpol : ∀ p ∈ policies, IsPeriod m (p.period + 1) → IsLatent m p.factor ∧ p.factor ∉ fs ∧ 0 ≤ p.standardDeviation) {params params' : List (Loc × ℝ)} (hparams : HasParams m params val) (hparams' : HasParams m' params' val)
    {nObs : Option Nat} {data : Option (LongData ℝ)} {n : ℕ} {cov : Nat → Covariates} (hi : Individuals m nObs data n cov) (hn : 0 < n) {Ω Ω' : Type} [MeasurableSpace Ω] [MeasurableSpace Ω'] {P : Measure Ω} {P' : Measure Ω'}
    [IsProbabilityMeasure P] [IsProbabilityMeasure P'] {E : Nat → Ω → Fin k} {Z : Nat → Draw → Ω → ℝ} {E' : Nat → Ω' → Fin k} {Z' : Nat → Draw → Ω' → ℝ} (hZ : RandomDatasetDraws P val E Z) (hZ' : RandomDatasetDraws P' val E' Z') :
    ∃ (out : Ω → SimulatedDataset) (out' : Ω' → SimulatedDataset) (X : Nat → Ω → Cell m → ℝ) (X' : Nat → Ω' → Cell m' → ℝ),
      (∀ ω, simulateDataset root custom nan m params nObs data policies (drawsWith (fun i => E i ω) (fun i j => Z i j ω)) = .ok (out ω) ∧ DatasetIs m val n (fun i => X i ω) (out ω)) ∧
      (∀ ω, simulateDataset root' custom' nan' m' params' nObs data policies (drawsWith (fun i => E' i ω) (fun i j => Z' i j ω)) = .ok (out' ω) ∧ DatasetIs m' val n (fun i => X' i ω) (out' ω)) ∧
      P'.map (fun ω (i : Fin n) => X' i ω) = P.map (fun ω (i : Fin n) c => X i ω (cellWithAll (without_removeFactors hrem) hna c)) := by
  have hw := without_removeFactors hrem
  have hg := hsm.names
  have hg' := hw.goodNames hna hg
  have hv' := hw.properValues hna hv
  have hper' : ∀ t, IsPeriod m' t ↔ IsPeriod m t := fun t => ⟨hw.periods t, hper t⟩
  have hs : SimulationValues custom m k val policies := ⟨hv.positive, hv.sum, (linear_simulationValues hm hg custom hv).usable, fun p hp h => ⟨(hpol p hp h).1, (hpol p hp h).2.2⟩⟩
  have hs' : SimulationValues custom' m' k val policies := ⟨hv'.positive, hv'.sum, (linear_simulationValues hm' hg' custom' hv').usable, fun p hp h => by
    obtain ⟨a, b, c⟩ := hpol p hp (hw.periods _ h)
    exact ⟨(hw.isLatent _).mpr ⟨a, b⟩, c⟩⟩
  obtain ⟨out, X, h1, h2, h3, h4⟩ := C91_simulation_law root hpm hsm custom nan hs hparams hi hn hroot (linear_measurableCustom hm hg custom) hZ
  obtain ⟨out', X', h1', h2', h3', h4'⟩ := C91_simulation_law root' hpm' (simulationModel_without hw hna hsm hm') custom' nan' hs' hparams' (individuals_without hw hna hi) hn hroot' (linear_measurableCustom hm' hg' custom') hZ'
  have hmeas : Measurable (fun (x : Cell m → ℝ) (c : Cell m') => x (cellWithAll hw hna c)) := measurable_pi_iff.mpr (fun c => measurable_pi_apply (X := fun _ : Cell m => ℝ) (cellWithAll hw hna c))
  refine ⟨out, out', X, X', h1, h1', individuals_law h2 h2' h3 h3' hmeas (fun i hil => ?_)⟩
  obtain ⟨Ω₀, _, P₀, E₀, Z₀, hP₀, hZ₀⟩ := exists_simulationNoise (k := k) (fun e he => (hv.positive e he).le) hv.sum
  have hX := h4 i hil P₀ E₀ Z₀ hZ₀
  have hX' := h4' i hil P₀ E₀ Z₀ hZ₀
  have hae : AEMeasurable (fun ω => modelCells custom m val (cov i) policies (E₀ ω) (fun j => Z₀ j ω)) P₀ := by
    by_contra hno
    rw [Measure.map_of_not_aemeasurable hno] at hX
    have : IsProbabilityMeasure (P.map (X i)) := Measure.isProbabilityMeasure_map (h2 i).aemeasurable
    rw [hX] at this
    have h0 := this.measure_univ
    rw [Measure.coe_zero, Pi.zero_apply] at h0
    exact zero_ne_one h0
  have e1 : (fun ω => modelCells custom' m' val (cov i) policies (E₀ ω) (fun j => Z₀ j ω)) =
      (fun (x : Cell m → ℝ) (c : Cell m') => x (cellWithAll hw hna c)) ∘ (fun ω => modelCells custom m val (cov i) policies (E₀ ω) (fun j => Z₀ j ω)) := by
    funext ω c
    show _ = modelCells custom m val (cov i) policies (E₀ ω) _ (cellWithAll hw hna c)
    rw [← cells_without hw hm hm' hna hg hper' hinf custom (cov i) policies (E₀ ω).isLt _ c]
    exact congrFun (cells_custom hm' hg' custom' custom val (cov i) _ _ _) c
  rw [hX', e1, ← AEMeasurable.map_map_of_aemeasurable hmeas.aemeasurable hae, ← hX, Measure.map_map hmeas (h2 i)]
  rfl

end
end Skill
