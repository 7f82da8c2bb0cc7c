import Verif.Lemmas.CondMean
import Verif.Props.Rescaling
import Verif.Props.ConstantIsLinear
import Verif.Props.SameModel
import Verif.Lemmas.SameJoint

/-
C107: filtered states only depend on the joint distribution of the latent factor and the data. They follow a change of the units of factors, and anchored states do not depend on these units.
-/
namespace Skill
open Matrix MeasureTheory ProbabilityTheory Spec

section
variable {qr qr' : QR} {m m' : ModelDict ℝ} {pm pm' : Processed ℝ} {k k' : ℕ} {val val' : Loc → ℝ} {f g : String} {c d : ℕ → ℝ}
  {Ω Ω' : Type} [MeasurableSpace Ω] [MeasurableSpace Ω'] {P : Measure Ω} {P' : Measure Ω'} [IsProbabilityMeasure P] [IsProbabilityMeasure P'] {E : Ω → Fin k} {E' : Ω' → Fin k'} {Z : Noise → Ω → ℝ} {Z' : Noise → Ω' → ℝ}

omit [IsProbabilityMeasure P] in
theorem measurable_factor {val₀ : Loc → ℝ} (hZ : RandomNoise P val₀ E Z) (m : ModelDict ℝ) (val : Loc → ℝ) (cov : Covariates) (t : ℕ) (f : String) : Measurable (fun ω => latentStates m val cov (E ω) (fun j => Z j ω) t f) :=
  (measurable_from_prod_countable_right (f := fun p : Fin k × (Noise → ℝ) => latentStates m val cov p.1 p.2 t f) (fun e => measurable_states m val cov e t f)).comp (hZ.measurable_element.prodMk (measurable_pi_iff.mpr hZ.measurable))

omit [IsProbabilityMeasure P] in
theorem measurable_data {val₀ : Loc → ℝ} (hZ : RandomNoise P val₀ E Z) (m : ModelDict ℝ) (val : Loc → ℝ) (cov : Covariates) (u : List (Nat × String)) :
    Measurable (fun ω => observedData u cov (measurementValue m val cov (E ω) (fun j => Z j ω))) :=
  (measurable_observed m _ cov u).comp (hZ.measurable_element.prodMk (measurable_pi_iff.mpr hZ.measurable))

theorem only_states (m : ModelDict ℝ) (val : Loc → ℝ) (cov : Covariates) (p : Nat → String → Prop) (e : ℕ) (z : Noise → ℝ) (t : ℕ) : latentStates m val (cov.only p) e z t = latentStates m val cov e z t := by
  induction t with
  | zero => rfl
  | succ t ih =>
    funext f
    simp only [latentStates]
    rw [ih]
    rfl

theorem only_measurement (m : ModelDict ℝ) (val : Loc → ℝ) (cov : Covariates) (p : Nat → String → Prop) (e : ℕ) (z : Noise → ℝ) : measurementValue m val (cov.only p) e z = measurementValue m val cov e z := by
  funext t v
  unfold measurementValue
  rw [only_states]
  rfl

/-- **C107.** Consider two model dictionaries about the same variables with linear or constant transition functions (with one mixture element if there is anchoring) and values of their parameters. Suppose that in the statistical models that the
user wrote down the data and a latent factor of one model have the same joint distribution as the data and a linear transformation of a latent factor of the other model. Then for every dataset the filtered states of the two
factors are related by this transformation, for any QR decompositions. So filtered states do not depend on how a model and its parameters are written down. -/
theorem C107_filtered_states (hqr : ValidQR qr) (hqr' : ValidQR qr') (hpm : processModel m = .ok pm) (hpm' : processModel m' = .ok pm') (hm : LinearModel m k) (hm' : LinearModel m' k') (hanch : m.anchoring = none ∨ k = 1)
    (hanch' : m'.anchoring = none ∨ k' = 1) (hg : GoodNames m) (hg' : GoodNames m') (hnames : ∀ f, IsLatent m f → f ≠ "period" ∧ f ≠ "id") (hnames' : ∀ f, IsLatent m' f → f ≠ "period" ∧ f ≠ "id")
    (hkappa : ∀ o x, m.estimationOptions = some o → o.sigmaPointsScale = some x → 0 ≤ x) (hkappa' : ∀ o x, m'.estimationOptions = some o → o.sigmaPointsScale = some x → 0 ≤ x) (hsame : SameVariables m m')
    (hv : ProperValues m k val) (hv' : ProperValues m' k' val') (hf : IsLatent m f) (hf' : IsLatent m' g) (hZ : RandomNoise P val E Z) (hZ' : RandomNoise P' val' E' Z')
    (hlaw : SameJointDistribution P E Z P' E' Z' m val f m' val' g c d) (custom custom' : String → CustomFn) (nan nan' : ℝ) {df : LongData ℝ} {ids pers : List Int} {params params' : List (Loc × ℝ)} {out out' : FilteredStates}
    (hi : IndexOk df) (hu : NoUnusedPeriods df) (hids : IdsOf df ids) (hpers : PeriodsOf df pers) (hn : (params.map Prod.fst).Nodup) (hn' : (params'.map Prod.fst).Nodup) (hval : ∀ l x, (l, x) ∈ params → x = val l)
    (hval' : ∀ l x, (l, x) ∈ params' → x = val' l) (hout : getFilteredStates qr custom nan m df params = .ok out) (hout' : getFilteredStates qr' custom' nan' m' df params' = .ok out')
    (t i : Nat) (ht : IsPeriod m t) (hil : i < ids.length) (hdesc : ∃ cov y, Describes m df ids pers i cov y) :
    (∃ cells cells', out.unanchored.states.rows[t * ids.length + i]? = some (t, cells) ∧ out'.unanchored.states.rows[t * ids.length + i]? = some (t, cells') ∧ cells f = c t * cells' g + d t) ∧
    ∃ cells cells' x, out.anchored.states.rows[t * ids.length + i]? = some (t, cells) ∧ out'.anchored.states.rows[t * ids.length + i]? = some (t, cells') ∧
      cells f = anchoredValue m val t f (c t * x + d t) ∧ cells' g = anchoredValue m' val' t g x := by
  obtain ⟨cov, y, hdesc⟩ := hdesc
  obtain ⟨a, ha, M, hMc, hM, hMdf⟩ := C85_filtered_states hqr hpm hm hanch hg hnames hkappa hv custom nan
  obtain ⟨b, hb, N, hNc, hN, hNdf⟩ := C85_filtered_states hqr' hpm' hm' hanch' hg' hnames' hkappa' hv' custom' nan'
  obtain ⟨u, hu', hdens⟩ := positive_density hqr hpm hm hanch hg hkappa hv hZ
  obtain ⟨⟨cells, h1, _, _, h2⟩, cellsA, h3, _, _, h4⟩ := (hMdf df ids pers params out hi hu hids hpers hn hval hout).2 t i cov y ht hil hdesc
  obtain ⟨⟨cells', h1', _, _, h2'⟩, cellsA', h3', _, _, h4'⟩ := (hNdf df ids pers params' out' hi hu hids hpers hn' hval' hout').2 t i cov y ((hsame.periods t).mp ht) hil (hsame.describes hdesc)
  have hp : (fun s v => s ≤ t ∧ IsMeasurement m' s v) = fun s v => s ≤ t ∧ IsMeasurement m s v := by
    funext s v
    exact propext (and_congr_right (fun _ => (hsame.measurements s v).symm))
  have hNt := hN cov t g ((hsame.periods t).mp ht) hf' P' E' Z' hZ'
  have hMt := hM cov t f ht hf P E Z hZ
  rw [hp] at hNt h2' h4'
  set q : Nat → String → Prop := fun s v => s ≤ t ∧ IsMeasurement m s v with hq
  have hone : ConstantIsOne m (cov.only q) := constant_only (constant_of_describes (update_period hm) hdesc) q
  have hmem : ∀ x, x ∈ a ↔ x ∈ b := fun x => by rw [ha.all x.1 x.2, hb.all x.1 x.2, hsame.isUpdate]
  obtain ⟨T, hTc, hmp, hTo⟩ := exists_reorder ha.nodup hb.nodup hmem (cov.only q)
  have hX : ∀ l, Measurable (fun ω => observedData l (cov.only q) (measurementValue m val cov (E ω) (fun j => Z j ω))) := fun l => by
    simp only [← only_measurement m val cov q]
    exact measurable_data hZ m val (cov.only q) l
  have hX' : ∀ l, Measurable (fun ω => observedData l (cov.only q) (measurementValue m' val' cov (E' ω) (fun j => Z' j ω))) := fun l => by
    simp only [← only_measurement m' val' cov q]
    exact measurable_data hZ' m' val' (cov.only q) l
  have hjoint := hlaw a ha (cov.only q) hone t ht
  simp only [only_measurement, only_states] at hjoint
  obtain ⟨hMi, hMe⟩ := setIntegral_of_condMean (M := fun x => M cov t x f) (hX a) hMt.1 hMt.2.2
  obtain ⟨hNi, hNe⟩ := setIntegral_of_condMean (M := fun x => N cov t x g) (hX' b) hNt.1 hNt.2.2
  have hNcont : Continuous (fun x => c t * N cov t (T x) g + d t) := (continuous_const.mul ((hNc cov t g ((hsame.periods t).mp ht)).comp hTc)).add continuous_const
  have hae : (fun x => M cov t x f) =ᵐ[P.map (fun ω => observedData a (cov.only q) (measurementValue m val cov (E ω) (fun j => Z j ω)))] fun x => c t * N cov t (T x) g + d t := by
    refine condMean_unique (hX a) (hX' a) (measurable_factor hZ m val cov t f) ((measurable_factor hZ' m' val' cov t g).const_mul (c t) |>.add_const (d t)) hjoint (hMc cov t f ht).measurable
      hNcont.measurable hMi ?_ hMe ?_
    · simp only [hTo]
      exact (hNi.const_mul (c t)).add (integrable_const _)
    · intro A hA
      have hB : MeasurableSet (T.symm ⁻¹' A) := T.symm.measurable hA
      have hpre : (fun ω => observedData a (cov.only q) (measurementValue m' val' cov (E' ω) (fun j => Z' j ω))) ⁻¹' A =
          (fun ω => observedData b (cov.only q) (measurementValue m' val' cov (E' ω) (fun j => Z' j ω))) ⁻¹' (T.symm ⁻¹' A) := by
        ext ω
        simp only [Set.mem_preimage, ← hTo, MeasurableEquiv.symm_apply_apply]
      simp only [hTo]
      rw [hpre, integral_add (hNi.const_mul (c t)).integrableOn (integrable_const _), integral_add (hNt.1.const_mul (c t)).integrableOn (integrable_const _), integral_const_mul, integral_const_mul, hNe _ hB]
  obtain ⟨D, hDc, hDpos, hD⟩ := hdens (cov.only q)
  simp only [only_measurement] at hD
  have key := eq_of_ae_law ha.nodup hu'.nodup (fun x => by rw [ha.all x.1 x.2, hu'.all x.1 x.2]) hX hDc hDpos hD (hMc cov t f ht) hNcont hae y
  simp only [Function.comp, hTo] at key
  exact ⟨⟨cells, cells', h1, h1', by rw [h2 f hf, h2' g hf', key]⟩, cellsA, cellsA', _, h3, h3', by rw [h4 f hf, key], h4' g hf'⟩

end

section
variable {qr qr' : QR} {m : ModelDict ℝ} {pm : Processed ℝ} {k : ℕ} {val val' : Loc → ℝ} {c d : ℕ → String → ℝ}

/-- **C107.** If the units of latent factors change (`x` in period t becomes `c t f * x + d t f`) and the parameters are adjusted (see C103), then the filtered states are those in the new units. The anchored states of anchored factors do not
change at all: they do not depend on the units of the latent factors. -/
theorem C107_units (hqr : ValidQR qr) (hqr' : ValidQR qr') (hpm : processModel m = .ok pm) (hm : LinearModel m k) (hanch : m.anchoring = none ∨ k = 1) (hg : GoodNames m) (hnames : ∀ f, IsLatent m f → f ≠ "period" ∧ f ≠ "id")
    (hkappa : ∀ o x, m.estimationOptions = some o → o.sigmaPointsScale = some x → 0 ≤ x) (hc : CanRescale m c d) (hr : Rescales m c d val val') (hv : ProperValues m k val) (custom custom' : String → CustomFn) (nan nan' : ℝ)
    {df : LongData ℝ} {ids pers : List Int} {params params' : List (Loc × ℝ)} {out out' : FilteredStates} (hi : IndexOk df) (hu : NoUnusedPeriods df) (hids : IdsOf df ids) (hpers : PeriodsOf df pers)
    (hn : (params.map Prod.fst).Nodup) (hn' : (params'.map Prod.fst).Nodup) (hval : ∀ l x, (l, x) ∈ params → x = val l) (hval' : ∀ l x, (l, x) ∈ params' → x = val' l)
    (hout : getFilteredStates qr custom nan m df params = .ok out) (hout' : getFilteredStates qr' custom' nan' m df params' = .ok out') (t i : Nat) (ht : IsPeriod m t) (hil : i < ids.length) (hdesc : ∃ cov y, Describes m df ids pers i cov y)
    {f : String} (hf : IsLatent m f) :
    (∃ cells cells', out.unanchored.states.rows[t * ids.length + i]? = some (t, cells) ∧ out'.unanchored.states.rows[t * ids.length + i]? = some (t, cells') ∧ cells' f = c t f * cells f + d t f) ∧
    ∃ cells cells', out.anchored.states.rows[t * ids.length + i]? = some (t, cells) ∧ out'.anchored.states.rows[t * ids.length + i]? = some (t, cells') ∧
      ((∃ o, AnchoredIn m f o) → cells' f = cells f) ∧ ((¬∃ o, AnchoredIn m f o) → cells' f = c t f * cells f + d t f) := by
  obtain ⟨Ω, hΩ, P, E, Z, hP, hZ⟩ := exists_randomNoise (fun e he => (hv.positive e he).le) hv.sum
  have hZ' : RandomNoise P val' E Z := ⟨hZ.measurable_element, hZ.measurable, hZ.normal, hZ.independent, hZ.element_independent, fun e => by rw [hr.weights, hZ.element_weights]⟩
  have hjoint : SameJointDistribution P E Z P E Z m val' f m val f (fun t => c t f) (fun t => d t f) := by
    intro updates hup cov hone t ht
    congr 1
    funext ω
    rw [rescaled_states hr hc hg hm.anchoring.1 hv.scales cov (E ω) _ t ht f hf]
    congr 1
    funext j
    unfold observedData
    split_ifs with ho
    · have hupd := (hup.all _ _).mp (List.get_mem updates j)
      rw [rescaled_measurement hr hc hg hm.anchoring.1 hv.scales cov (E ω) _ (update_period hm _ _ hupd) _ (hone _ _ hupd ho)]
    · rfl
  obtain ⟨⟨cells, cells', h1, h2, h3⟩, cellsA, cellsA', x, h4, h5, h6, h7⟩ := C107_filtered_states hqr' hqr hpm hpm hm hm hanch hanch hg hg hnames hnames hkappa hkappa
    ⟨fun _ => Iff.rfl, fun _ _ => Iff.rfl, fun _ _ => Iff.rfl, fun _ => Iff.rfl, fun _ => Iff.rfl⟩ (hr.proper hc hg hm.anchoring.1 hv) hv hf hf hZ' hZ hjoint custom' custom nan' nan hi hu hids hpers hn' hn hval' hval hout' hout t i ht hil hdesc
  refine ⟨⟨cells', cells, h2, h1, h3⟩, cellsA', cellsA, h5, h4, fun ho => ?_, fun ho => ?_⟩
  · rw [h6, h7, rescaled_anchored hr hc hg hm.anchoring.1 t hf]
    unfold unitScale unitShift
    rw [if_neg (fun h => h.2 ho), if_neg (fun h => h.2 ho)]
    ring
  · rw [h6, h7, rescaled_anchored hr hc hg hm.anchoring.1 t hf]
    unfold unitScale unitShift
    rw [if_pos ⟨hf, ho⟩, if_pos ⟨hf, ho⟩]

/-- **C107.** The filtered states do not change if the transition function "constant" is replaced by "linear" with the corresponding parameters (see C105). -/
theorem C107_constant_is_linear {p : String → Bool} {pm' : Processed ℝ} (hqr : ValidQR qr) (hqr' : ValidQR qr') (hpm : processModel m = .ok pm) (hpm' : processModel (makeLinear p m) = .ok pm') (hm : LinearModel m k)
    (hanch : m.anchoring = none ∨ k = 1) (hg : GoodNames m) (hnames : ∀ f, IsLatent m f → f ≠ "period" ∧ f ≠ "id") (hkappa : ∀ o x, m.estimationOptions = some o → o.sigmaPointsScale = some x → 0 ≤ x)
    (hconst : ∀ f, p f = true → IsLatent m f → HasTransition m f "constant") (hk : KeepsFactors p m val val') (hv : ProperValues m k val) (custom custom' : String → CustomFn) (nan nan' : ℝ)
    {df : LongData ℝ} {ids pers : List Int} {params params' : List (Loc × ℝ)} {out out' : FilteredStates} (hi : IndexOk df) (hu : NoUnusedPeriods df) (hids : IdsOf df ids) (hpers : PeriodsOf df pers)
    (hn : (params.map Prod.fst).Nodup) (hn' : (params'.map Prod.fst).Nodup) (hval : ∀ l x, (l, x) ∈ params → x = val l) (hval' : ∀ l x, (l, x) ∈ params' → x = val' l)
    (hout : getFilteredStates qr custom nan m df params = .ok out) (hout' : getFilteredStates qr' custom' nan' (makeLinear p m) df params' = .ok out') (t i : Nat) (ht : IsPeriod m t) (hil : i < ids.length)
    (hdesc : ∃ cov y, Describes m df ids pers i cov y) {f : String} (hf : IsLatent m f) :
    (∃ cells cells', out.unanchored.states.rows[t * ids.length + i]? = some (t, cells) ∧ out'.unanchored.states.rows[t * ids.length + i]? = some (t, cells') ∧ cells' f = cells f) ∧
    ∃ cells cells', out.anchored.states.rows[t * ids.length + i]? = some (t, cells) ∧ out'.anchored.states.rows[t * ids.length + i]? = some (t, cells') ∧ cells' f = cells f := by
  obtain ⟨Ω, hΩ, P, E, Z, hP, hZ⟩ := exists_randomNoise (fun e he => (hv.positive e he).le) hv.sum
  have hw : ∀ e, val' ⟨.mixtureWeights, 0, Spec.mixtureName e, "-"⟩ = val ⟨.mixtureWeights, 0, Spec.mixtureName e, "-"⟩ := fun e => hk.others _ (by simp)
  have hZ' : RandomNoise P val' E Z := ⟨hZ.measurable_element, hZ.measurable, hZ.normal, hZ.independent, hZ.element_independent, fun e => by rw [hw, hZ.element_weights]⟩
  have hl : ∀ f, IsLatent (makeLinear p m) f ↔ IsLatent m f := fun f => by rw [← mem_latents_iff, makeLinear_latents, mem_latents_iff]
  have hjoint : SameJointDistribution P E Z P E Z m val f (makeLinear p m) val' f (fun _ => 1) (fun _ => 0) := by
    intro updates hup cov hone t ht
    congr 1
    funext ω
    rw [makeLinear_states hg hconst hk cov _ _ t f hf, one_mul, add_zero, show measurementValue (makeLinear p m) val' cov (E ω) (fun j => Z j ω) = measurementValue m val cov (E ω) (fun j => Z j ω) from
        funext (fun t => funext (fun v => makeLinear_measurement hg hconst hk cov _ _ t v))]
  obtain ⟨⟨cells, cells', h1, h2, h3⟩, cellsA, cellsA', x, h4, h5, h6, h7⟩ := C107_filtered_states hqr hqr' hpm hpm' hm (makeLinear_linear hm) hanch hanch hg (makeLinear_names hg) hnames (fun f hf => hnames f ((hl f).mp hf)) hkappa hkappa
    makeLinear_variables hv (makeLinear_proper hk hv) hf ((hl f).mpr hf) hZ hZ' hjoint custom custom' nan nan' hi hu hids hpers hn hn' hval hval' hout hout' t i ht hil hdesc
  refine ⟨⟨cells, cells', h1, h2, by rw [h3]; ring⟩, cellsA, cellsA', h4, h5, ?_⟩
  rw [h6, h7]
  unfold anchoredValue
  rw [(makeLinear_anchor hk t f).1, (makeLinear_anchor hk t f).2, one_mul, add_zero]

/-- **C107.** The filtered states do not depend on the order of the entries of a model dictionary and on the numbers of the mixture elements (see C101). -/
theorem C107_order_does_not_matter {m' : ModelDict ℝ} {pm' : Processed ℝ} (hqr : ValidQR qr) (hqr' : ValidQR qr') (hpm : processModel m = .ok pm) (hpm' : processModel m' = .ok pm') (hm : LinearModel m k) (hm' : LinearModel m' k)
    (hanch : (m.anchoring = none ∧ m'.anchoring = none) ∨ k = 1) (hg : GoodNames m) (hg' : GoodNames m') (hnames : ∀ f, IsLatent m f → f ≠ "period" ∧ f ≠ "id")
    (hkappa : ∀ o x, m.estimationOptions = some o → o.sigmaPointsScale = some x → 0 ≤ x) (hkappa' : ∀ o x, m'.estimationOptions = some o → o.sigmaPointsScale = some x → 0 ≤ x) (hsame : SameModel m m') {σ : Equiv.Perm (Fin k)}
    (hp : SameParameters m m' σ val val') (hv : ProperValues m k val) (custom custom' : String → CustomFn) (nan nan' : ℝ)
    {df : LongData ℝ} {ids pers : List Int} {params params' : List (Loc × ℝ)} {out out' : FilteredStates} (hi : IndexOk df) (hu : NoUnusedPeriods df) (hids : IdsOf df ids) (hpers : PeriodsOf df pers)
    (hn : (params.map Prod.fst).Nodup) (hn' : (params'.map Prod.fst).Nodup) (hval : ∀ l x, (l, x) ∈ params → x = val l) (hval' : ∀ l x, (l, x) ∈ params' → x = val' l)
    (hout : getFilteredStates qr custom nan m df params = .ok out) (hout' : getFilteredStates qr' custom' nan' m' df params' = .ok out') (t i : Nat) (ht : IsPeriod m t) (hil : i < ids.length)
    (hdesc : ∃ cov y, Describes m df ids pers i cov y) {f : String} (hf : IsLatent m f) :
    (∃ cells cells', out.unanchored.states.rows[t * ids.length + i]? = some (t, cells) ∧ out'.unanchored.states.rows[t * ids.length + i]? = some (t, cells') ∧ cells' f = cells f) ∧
    ∃ cells cells', out.anchored.states.rows[t * ids.length + i]? = some (t, cells) ∧ out'.anchored.states.rows[t * ids.length + i]? = some (t, cells') ∧ cells' f = cells f := by
  obtain ⟨Ω, hΩ, P, E, Z, hP, hZ⟩ := exists_randomNoise (fun e he => (hv.positive e he).le) hv.sum
  have hper := hsame.period hm hm'
  have hjoint : SameJointDistribution P E Z P (fun ω => σ (E ω)) Z m val f m' val' f (fun _ => 1) (fun _ => 0) := by
    intro updates hup cov hone t ht
    simp only [one_mul, add_zero]
    exact (same_joint hsame hg hg' hp hZ cov updates t ((mem_latents_iff m f).mpr hf)).symm
  obtain ⟨⟨cells, cells', h1, h2, h3⟩, cellsA, cellsA', x, h4, h5, h6, h7⟩ := C107_filtered_states hqr hqr' hpm hpm' hm hm' (hanch.imp And.left id) (hanch.imp And.right id) hg hg' hnames (fun f hf => hnames f ((hsame.latent f).mpr hf)) hkappa hkappa'
    (hsame.variables hper) hv (hp.proper hsame hper hg hg' hv) hf ((hsame.latent f).mp hf) hZ (relabelled hZ σ hp.weights) hjoint custom custom' nan nan' hi hu hids hpers hn hn' hval hval' hout hout' t i ht hil hdesc
  refine ⟨⟨cells, cells', h1, h2, by rw [h3]; ring⟩, cellsA, cellsA', h4, h5, ?_⟩
  have hs := hsame.scale hg hg' (Dynamic.scales (fun l h1 h2 h3 => hp.others l h1 h2 h3)) t f
  rw [h6, h7]
  unfold anchoredValue
  rw [hs.1, hs.2, one_mul, add_zero]

end

end Skill
