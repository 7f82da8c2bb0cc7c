import Verif.Props.ObservationalEquivalence
import Verif.Lemmas.Rescaling
/-
C105: the transition function "constant" is a special case of "linear".
-/
namespace Skill
open Matrix MeasureTheory ProbabilityTheory Spec

section
variable {p : String → Bool} {m : ModelDict ℝ}

theorem makeLinear_mem {f : String} {spec : FactorSpec ℝ} : (f, spec) ∈ (makeLinear p m).factors ↔ ∃ s, (f, s) ∈ m.factors ∧ spec = if p f then { s with transition := .named "linear" } else s := by
  unfold makeLinear
  simp only [List.mem_map, Prod.mk.injEq]
  constructor
  · rintro ⟨⟨f', s⟩, hmem, rfl, rfl⟩
    exact ⟨s, hmem, rfl⟩
  · rintro ⟨s, hmem, rfl⟩
    exact ⟨(f, s), hmem, rfl, rfl⟩

theorem makeLinear_latents : latents (makeLinear p m) = latents m := by
  unfold latents makeLinear
  rw [List.map_map]
  rfl

theorem makeLinear_all : allFactors (makeLinear p m) = allFactors m := by
  show latents (makeLinear p m) ++ _ = latents m ++ _
  rw [makeLinear_latents]
  rfl

theorem makeLinear_spec {f : String} {P : FactorSpec ℝ → Prop} (hP : ∀ s : FactorSpec ℝ, P { s with transition := .named "linear" } ↔ P s) : (∃ spec, (f, spec) ∈ (makeLinear p m).factors ∧ P spec) ↔ ∃ spec, (f, spec) ∈ m.factors ∧ P spec := by
  constructor
  · rintro ⟨spec, hmem, h⟩
    obtain ⟨s, hs', rfl⟩ := makeLinear_mem.mp hmem
    refine ⟨s, hs', ?_⟩
    split_ifs at h
    · exact (hP s).mp h
    · exact h
  · rintro ⟨s, hmem, h⟩
    refine ⟨_, makeLinear_mem.mpr ⟨s, hmem, rfl⟩, ?_⟩
    split_ifs
    · exact (hP s).mpr h
    · exact h

theorem makeLinear_measures (t : ℕ) (v f : String) : Measures (makeLinear p m) t v f ↔ Measures m t v f := makeLinear_spec (fun _ => Iff.rfl)

theorem makeLinear_length {f : String} {spec : FactorSpec ℝ} (h : (f, spec) ∈ (makeLinear p m).factors) : ∃ s, (f, s) ∈ m.factors ∧ s.measurements = spec.measurements := by
  obtain ⟨s, hmem, rfl⟩ := makeLinear_mem.mp h
  refine ⟨s, hmem, ?_⟩
  split_ifs <;> rfl

theorem makeLinear_periods (t : ℕ) : IsPeriod m t ↔ IsPeriod (makeLinear p m) t := by
  have h : ∀ n, IsNPeriods m n ↔ IsNPeriods (makeLinear p m) n := by
    intro n
    unfold IsNPeriods
    refine and_congr ?_ ?_
    · exact exists_congr (fun f => (makeLinear_spec (P := fun s => s.measurements.length = n) (fun _ => Iff.rfl)).symm)
    · constructor
      · intro h f spec hmem
        obtain ⟨s, hs, he⟩ := makeLinear_length hmem
        rw [← he]
        exact h f s hs
      · intro h f spec hmem
        have := h f _ (makeLinear_mem.mpr ⟨spec, hmem, rfl⟩)
        split_ifs at this <;> exact this
  exact exists_congr (fun n => and_congr_left (fun _ => h n))

theorem makeLinear_variables : SameVariables m (makeLinear p m) where
  periods := makeLinear_periods
  measurements t v := exists_congr (fun f => (makeLinear_measures t v f).symm)
  anchored _ _ := Iff.rfl
  controls _ := Iff.rfl
  observed _ := Iff.rfl

theorem makeLinear_linear {k : ℕ} (hm : LinearModel m k) : LinearModel (makeLinear p m) k where
  anchoring := by
    have hl : ∀ f, IsLatent m f → IsLatent (makeLinear p m) f := fun f hf => by rw [← mem_latents_iff, makeLinear_latents, mem_latents_iff]; exact hf
    refine ⟨⟨fun f o h => hl f (hm.anchoring.1.latent f o h), fun v f t g h hme => hm.anchoring.1.notMeasured v f t g h ((makeLinear_measures t v g).mp hme), hm.anchoring.1.distinct⟩, ?_, hm.anchoring.2.2⟩
    intro a os h1 h2
    have := hm.anchoring.2.1 a os h1 h2
    show _ = (latents (makeLinear p m)).filter _
    rw [makeLinear_latents]
    exact this
  periods := (makeLinear_periods 1).mp hm.periods
  measured t ht := by
    obtain ⟨v, f, h⟩ := hm.measured t ((makeLinear_periods t).mpr ht)
    exact ⟨v, f, (makeLinear_measures t v f).mpr h⟩
  transitions f spec hmem := by
    obtain ⟨s, hs', rfl⟩ := makeLinear_mem.mp hmem
    split_ifs
    · exact Or.inl rfl
    · exact hm.transitions f s hs'
  mixture := hm.mixture
  single := hm.single

theorem makeLinear_names (hg : GoodNames m) : GoodNames (makeLinear p m) where
  keys := by
    refine ⟨?_, hg.keys.outcomes⟩
    show (latents (makeLinear p m)).Nodup
    rw [makeLinear_latents]
    exact hg.keys.factors
  distinct := by rw [makeLinear_all]; exact hg.distinct
  controls := hg.controls
  chars := by rw [makeLinear_all]; exact hg.chars
  reserved := by rw [makeLinear_all]; exact hg.reserved
  registered f spec fn ps hmem hs := by
    obtain ⟨s, hs', rfl⟩ := makeLinear_mem.mp hmem
    by_cases hp : p f = true
    · rw [if_pos hp] at hs
      exact absurd hs (by simp)
    · rw [if_neg hp] at hs
      exact hg.registered f s fn ps hs' hs

theorem makeLinear_transition {f : String} (hconst : ∀ f, p f = true → IsLatent m f → HasTransition m f "constant") (hf : IsLatent m f) : HasTransition (makeLinear p m) f "constant" ↔ HasTransition m f "constant" ∧ p f = false := by
  constructor
  · rintro ⟨spec, hmem, h⟩
    obtain ⟨s, hs', rfl⟩ := makeLinear_mem.mp hmem
    by_cases hp : p f = true
    · rw [if_pos hp] at h
      exact absurd h (by simp)
    · rw [if_neg hp] at h
      exact ⟨⟨s, hs', h⟩, by simpa using hp⟩
  · rintro ⟨⟨s, hmem, h⟩, hp⟩
    exact ⟨s, makeLinear_mem.mpr ⟨s, hmem, by simp [hp]⟩, h⟩

variable {val val' : Loc → ℝ}

theorem makeLinear_next (hg : GoodNames m) (hconst : ∀ f, p f = true → IsLatent m f → HasTransition m f "constant") (hk : KeepsFactors p m val val') (t : ℕ) (s : String → ℝ) {f : String} (hf : IsLatent m f) :
    nextAnchored (makeLinear p m) val' t s f = nextAnchored m val t s f := by
  unfold nextAnchored
  rw [makeLinear_all]
  by_cases hp : p f = true
  · rw [if_neg (fun h => by have := ((makeLinear_transition hconst hf).mp h).2; rw [hp] at this; cases this), if_pos (hconst f hp hf)]
    have hmem : f ∈ allFactors m := List.mem_append_left _ ((mem_latents_iff m f).mpr hf)
    unfold linearValue linearTerms
    dsimp only
    rw [hk.cross t f "constant" hp hf List.mem_cons_self (hg.reserved f hmem).1.symm, add_zero, ← List.sum_toFinset (l := allFactors m) _ hg.distinct, Finset.sum_eq_single f]
    · rw [hk.own t f hp hf]
      ring
    · intro g hgm hne
      rw [hk.cross t f g hp hf (List.mem_cons_of_mem _ (List.mem_toFinset.mp hgm)) hne]
      ring
    · intro h
      exact absurd (List.mem_toFinset.mpr hmem) h
  · have hv : ∀ name, val' ⟨.transition, t, f, name⟩ = val ⟨.transition, t, f, name⟩ := fun name => hk.others _ (fun h => hp h.2)
    have : HasTransition (makeLinear p m) f "constant" ↔ HasTransition m f "constant" := by
      rw [makeLinear_transition hconst hf]
      exact and_iff_left (by simpa using hp)
    classical
    simp only [hv]
    exact if_congr this rfl rfl

theorem makeLinear_anchor (hk : KeepsFactors p m val val') (t : ℕ) (f : String) : anchorScale (makeLinear p m) val' t f = anchorScale m val t f ∧ anchorConstant (makeLinear p m) val' t f = anchorConstant m val t f := by
  have h1 : outcome (makeLinear p m) f = outcome m f := rfl
  constructor
  · unfold anchorScale
    rw [h1]
    cases outcome m f with
    | none => rfl
    | some o => exact hk.others _ (by simp)
  · unfold anchorConstant
    rw [h1]
    cases outcome m f with
    | none => rfl
    | some o =>
      dsimp only
      rw [hk.others _ (by simp)]
      rfl

theorem makeLinear_states (hg : GoodNames m) (hconst : ∀ f, p f = true → IsLatent m f → HasTransition m f "constant") (hk : KeepsFactors p m val val') (cov : Covariates) (e : ℕ) (z : Noise → ℝ) (t : ℕ) :
    ∀ f, IsLatent m f → latentStates (makeLinear p m) val' cov e z t f = latentStates m val cov e z t f := by
  induction t with
  | zero =>
    intro f hf
    unfold latentStates startState
    rw [makeLinear_latents, hk.others _ (by simp)]
    congr 2
    exact List.map_congr_left (fun g _ => by rw [hk.others _ (by simp)])
  | succ t ih =>
    intro f hf
    unfold latentStates nextState
    rw [makeLinear_next hg hconst hk t _ hf, hk.others ⟨.shockSds, t, f, "-"⟩ (by simp), (makeLinear_anchor hk (t + 1) f).1, (makeLinear_anchor hk (t + 1) f).2]
    congr 5
    funext g
    rw [makeLinear_latents]
    split_ifs with hgl
    · unfold anchoredValue
      rw [(makeLinear_anchor hk t g).1, (makeLinear_anchor hk t g).2, ih g ((mem_latents_iff m g).mp hgl)]
    · rfl

theorem makeLinear_measurement (hg : GoodNames m) (hconst : ∀ f, p f = true → IsLatent m f → HasTransition m f "constant") (hk : KeepsFactors p m val val') (cov : Covariates) (e : ℕ) (z : Noise → ℝ) (t : ℕ) (v : String) :
    measurementValue (makeLinear p m) val' cov e z t v = measurementValue m val cov e z t v := by
  unfold measurementValue
  rw [makeLinear_latents, hk.others ⟨.measSds, t, v, "-"⟩ (by simp)]
  congr 2
  · congr 1
    exact List.map_congr_left (fun c _ => by rw [hk.others _ (by simp)])
  · congr 1
    refine List.map_congr_left (fun f hf => ?_)
    classical
    rw [makeLinear_states hg hconst hk cov e z t f ((mem_latents_iff m f).mp hf), hk.others _ (by simp)]
    exact if_congr (or_congr (makeLinear_measures t v f) Iff.rfl) rfl rfl

theorem makeLinear_proper {k : ℕ} (hk : KeepsFactors p m val val') (hv : ProperValues m k val) : ProperValues (makeLinear p m) k val' := by
  have hw : ∀ e, val' ⟨.mixtureWeights, 0, Spec.mixtureName e, "-"⟩ = val ⟨.mixtureWeights, 0, Spec.mixtureName e, "-"⟩ := fun e => hk.others _ (by simp)
  refine ⟨fun e he => by rw [hw]; exact hv.positive e he, by simp only [hw]; exact hv.sum, fun t v h => ?_, fun t f ht => ?_⟩
  · rw [hk.others _ (by simp)]
    exact hv.sds t v ((makeLinear_variables.isUpdate t v).mpr h)
  · rw [(makeLinear_anchor hk t f).1]
    exact hv.scales t f ((makeLinear_periods t).mpr ht)
end

/-- **C105.** The transition function "constant" is a special case of "linear": replace "constant" by "linear" for some factors, and give the factor itself the coefficient one, all other factors the coefficient zero and
the constant the value zero. Then the log likelihood contributions of all individuals are the same, for all datasets. (The contributions are not clipped.) -/
theorem C105_constant_is_linear {qr qr' : QR} (hqr : ValidQR qr) (hqr' : ValidQR qr') {p : String → Bool} {m : ModelDict ℝ} {pm pm' : Processed ℝ} (hpm : processModel m = .ok pm) (hpm' : processModel (makeLinear p m) = .ok pm') {k : ℕ}
    (hm : LinearModel m k) (hanch : m.anchoring = none ∨ k = 1) (hg : GoodNames m) (hkappa : ∀ o x, m.estimationOptions = some o → o.sigmaPointsScale = some x → 0 ≤ x)
    (hconst : ∀ f, p f = true → IsLatent m f → HasTransition m f "constant") {val val' : Loc → ℝ} (hk : KeepsFactors p m val val') (hv : ProperValues m k val) (custom custom' : String → CustomFn) (nan nan' : ℝ) {df : LongData ℝ}
    {ids pers : List Int} {inputs inputs' : MaximizationInputs} {params params' : List (Loc × ℝ)} {out out' : LoglikeOutput} (hi : IndexOk df) (hu : NoUnusedPeriods df) (hids : IdsOf df ids) (hpers : PeriodsOf df pers)
    (hn : (params.map Prod.fst).Nodup) (hn' : (params'.map Prod.fst).Nodup) (hval : ∀ l x, (l, x) ∈ params → x = val l) (hval' : ∀ l x, (l, x) ∈ params' → x = val' l) (hin : getMaximizationInputs m df = .ok inputs)
    (hin' : getMaximizationInputs (makeLinear p m) df = .ok inputs') (hout : inputs.loglike qr custom nan m params = .ok out) (hout' : inputs'.loglike qr' custom' nan' (makeLinear p m) params' = .ok out') :
    (∀ (i : Nat) (cov : Covariates) (y : Nat → String → ℝ), i < ids.length → Describes m df ids pers i cov y →
      (out'.allContributions.map (fun row => row.getD i 0)).sum = (out.allContributions.map (fun row => row.getD i 0)).sum ∧ (NoClipping m → out'.contributions.getD i 0 = out.contributions.getD i 0)) ∧
    (NoClipping m → (∀ i < ids.length, ∃ cov y, Describes m df ids pers i cov y) → out'.contributions = out.contributions ∧ out'.value = out.value) := by
  obtain ⟨Ω, hΩ, P, E, Z, hP, hZ⟩ := exists_randomNoise (fun e he => (hv.positive e he).le) hv.sum
  have hw : ∀ e, val' ⟨.mixtureWeights, 0, Spec.mixtureName e, "-"⟩ = val ⟨.mixtureWeights, 0, Spec.mixtureName e, "-"⟩ := fun e => hk.others _ (by simp)
  have hZ' : RandomNoise P val' E Z := ⟨hZ.measurable_element, hZ.measurable, hZ.normal, hZ.independent, hZ.element_independent, fun e => by rw [hw, hZ.element_weights]⟩
  have hv' : ProperValues (makeLinear p m) k val' := makeLinear_proper hk hv
  have h := C102_observational_equivalence hqr hqr' hpm hpm' hm (makeLinear_linear hm) (hanch.elim (fun h => Or.inl ⟨h, h⟩) (fun h => Or.inr ⟨h, h⟩)) hg (makeLinear_names hg) hkappa hkappa makeLinear_variables hv hv' hZ hZ'
    (by
      intro updates _ cov _
      congr 1
      funext ω
      rw [show measurementValue (makeLinear p m) val' cov (E ω) (fun j => Z j ω) = measurementValue m val cov (E ω) (fun j => Z j ω) from
        funext (fun t => funext (fun v => makeLinear_measurement hg hconst hk cov _ _ t v))])
    custom custom' nan nan' hi hu hids hpers hn hn' hval hval' hin hin' hout hout'
  exact ⟨fun i cov y hi' hd => ⟨(h.1 i cov y hi' hd).1, fun hc => (h.1 i cov y hi' hd).2 hc hc⟩, fun hc => h.2 hc hc⟩

end Skill
