import Verif.Lemmas.Separation
import Verif.Props.Edits
/-
C121, C122: the likelihood of linear models without some of the factors.
-/
namespace Skill
open Matrix MeasureTheory ProbabilityTheory Spec

section
variable {m m' : ModelDict ℝ} {fs : List String} {k : ℕ} {val : Loc → ℝ} {df : LongData ℝ} {ids pers : List Int}

theorem valueIs_none (hna : m.anchoring = none) (r : Option (LongRow ℝ)) (c : String) (a : Option ℝ) : ValueIs m r c a ↔ a = baseValue r c := by
  constructor
  · rintro (⟨f, o, ⟨b, hb, _⟩, _⟩ | ⟨_, h⟩)
    · rw [hna] at hb
      cases hb
    · exact h
  · intro h
    exact Or.inr ⟨fun ⟨f, hf⟩ => no_anchors hna c f hf, h⟩

open Classical in
/-- The covariates of an individual, with the values of all controls that are in the data. -/
noncomputable def withControls (df : LongData ℝ) (ids pers : List Int) (i : ℕ) (cov : Covariates) : Covariates :=
  { cov with control := fun t c => if h : ∃ r, RowOf df ids pers i t r then (baseValue h.choose c).getD (cov.control t c) else cov.control t c }

theorem withControls_eq (hk : UniqueKeys df) {i t : ℕ} {r : Option (LongRow ℝ)} (hr : RowOf df ids pers i t r) (cov : Covariates) (c : String) {a : ℝ} (ha : baseValue r c = some a) :
    (withControls df ids pers i cov).control t c = a := by
  have h : ∃ r, RowOf df ids pers i t r := ⟨r, hr⟩
  unfold withControls
  dsimp only
  rw [dif_pos h, rowOf_unique hk h.choose_spec hr, ha, Option.getD_some]

theorem describes_withControls (hna : m.anchoring = none) (hk : UniqueKeys df) {i : ℕ} {cov : Covariates} {y : Nat → String → ℝ} (h : Describes m df ids pers i cov y) : Describes m df ids pers i (withControls df ids pers i cov) y := by
  intro t ht
  obtain ⟨r, hr, h1, _, h3⟩ := h t ht
  exact ⟨r, hr, h1, fun _ c _ a ha => withControls_eq hk hr cov c ((valueIs_none hna r c _).mp ha).symm, h3⟩

theorem Without.describes (hw : Without m fs m') (hm : LinearModel m k) (hna : m.anchoring = none) (hk : UniqueKeys df) {i : ℕ} {cov : Covariates} {y : Nat → String → ℝ} (h : Describes m df ids pers i cov y) :
    Describes m' df ids pers i (withControls df ids pers i cov) y := by
  intro t ht
  have hna' := hw.anchoring hna
  obtain ⟨r, hr, h1, _, h3⟩ := h t (hw.periods t ht)
  have hupd : ∀ v, IsUpdate m' t v → IsUpdate m t v := fun v hv => by
    obtain ⟨f, hf, _⟩ := (hw.isUpdate hna t v).mp hv
    exact Or.inl ⟨f, hf⟩
  have hinc : IncompleteControls m' r t → IncompleteControls m r t := by
    rintro ⟨⟨c, hc, hcv⟩, w, y, hwu, hwv⟩
    refine ⟨⟨c, hw.controls ▸ hc, ?_⟩, w, y, hupd w hwu, ?_⟩
    · rw [valueIs_none hna]; exact (valueIs_none hna' _ _ _).mp hcv
    · rw [valueIs_none hna]; exact (valueIs_none hna' _ _ _).mp hwv
  refine ⟨r, hr, fun v hv => ?_, fun _ c _ a ha => withControls_eq hk hr cov c ((valueIs_none hna' r c _).mp ha).symm, fun f hf => ?_⟩
  · obtain ⟨a, w, ha, hkept, hobs, hy⟩ := h1 v (hupd v hv)
    have ha' : ValueIs m' r v a := (valueIs_none hna' _ _ _).mpr ((valueIs_none hna _ _ _).mp ha)
    refine ⟨a, w, ha', ?_, hobs, hy⟩
    by_cases hi' : IncompleteControls m' r t
    · rcases hkept with ⟨_, hw⟩ | ⟨hno, _⟩
      · exact Or.inl ⟨hi', hw⟩
      · exact absurd (hinc hi') hno
    · refine Or.inr ⟨hi', ?_⟩
      rcases hkept with ⟨⟨⟨c, hc, hcv⟩, _⟩, hw0⟩ | ⟨_, hw0⟩
      · cases a with
        | none => exact hw0
        | some b => exact absurd ⟨⟨c, hw.controls ▸ hc, (valueIs_none hna' _ _ _).mpr ((valueIs_none hna _ _ _).mp hcv)⟩, v, b, hv, ha'⟩ hi'
      · exact hw0
  · obtain ⟨h4, h5⟩ := h3 f (hw.observed ▸ hf)
    exact ⟨fun hi' => h4 (hinc hi'), (valueIs_none hna' _ _ _).mpr ((valueIs_none hna _ _ _).mp h5)⟩

theorem observed_congr {u : List (Nat × String)} {cov : Covariates} {y y' : Nat → String → ℝ} (h : ∀ x ∈ u, y x.1 x.2 = y' x.1 x.2) : observedData u cov y = observedData u cov y' := by
  funext j
  unfold observedData
  rw [h _ (List.get_mem u j)]
end

section
variable {qr qr' qr2 : QR} {m m' m2 : ModelDict ℝ} {fs : List String} {k : ℕ} {val : Loc → ℝ} {df : LongData ℝ} {ids pers : List Int} {inputs inputs' inputs2 : MaximizationInputs} {params params' params2 : List (Loc × ℝ)}
  {out out' out2 : LoglikeOutput}

/-- **C121**: factors without influence on the other factors can be removed (remove_factors) from models with linear or constant transition functions: the contributions of an individual with no observed measurements of the removed
factors (apart from those that also measure other factors) have the same sum, and without clipping the contribution of the individual and, if this holds for all individuals, the value of the log likelihood are the same. -/
theorem C121_remove_factors (hqr : ValidQR qr) (hqr' : ValidQR qr') (hrem : removeFactors fs m = .ok m') (hm : LinearModel m k) (hm' : LinearModel m' k) (hna : m.anchoring = none) (hg : GoodNames m)
    (hkappa : ∀ o x, m.estimationOptions = some o → o.sigmaPointsScale = some x → 0 ≤ x) (hv : ProperValues m k val) (hinf : NoInfluence m k fs val) (custom custom' : String → CustomFn) (nan nan' : ℝ) (hi : IndexOk df)
    (hu : NoUnusedPeriods df) (hids : IdsOf df ids) (hpers : PeriodsOf df pers) (hn : (params.map Prod.fst).Nodup) (hn' : (params'.map Prod.fst).Nodup) (hval : ∀ l x, (l, x) ∈ params → x = val l)
    (hval' : ∀ l x, (l, x) ∈ params' → x = val l) (hin : getMaximizationInputs m df = .ok inputs) (hin' : getMaximizationInputs m' df = .ok inputs') (hout : inputs.loglike qr custom nan m params = .ok out)
    (hout' : inputs'.loglike qr' custom' nan' m' params' = .ok out') :
    (∀ (i : Nat) (cov : Covariates) (y : Nat → String → ℝ), i < ids.length → Describes m df ids pers i cov y → (∀ t v, IsUpdate m t v → ¬IsUpdate m' t v → cov.isObserved t v = false) →
      (out'.allContributions.map (fun row => row.getD i 0)).sum = (out.allContributions.map (fun row => row.getD i 0)).sum ∧
      (NoClipping m → out'.contributions.getD i 0 = out.contributions.getD i 0)) ∧
    (NoClipping m → (∀ i < ids.length, ∃ cov y, Describes m df ids pers i cov y ∧ ∀ t v, IsUpdate m t v → ¬IsUpdate m' t v → cov.isObserved t v = false) →
      out'.contributions = out.contributions ∧ out'.value = out.value) := by
  have hw := without_removeFactors hrem
  have hna' := hw.anchoring hna
  have hg' := hw.goodNames hna hg
  have hv' := hw.properValues hna hv
  have hkappa' : ∀ o x, m'.estimationOptions = some o → o.sigmaPointsScale = some x → 0 ≤ x := by rw [hw.options]; exact hkappa
  have hclip : NoClipping m → NoClipping m' := fun h => by unfold NoClipping; rw [hw.options]; exact h
  obtain ⟨pm, hpm⟩ := accepted_of_inputs hin
  obtain ⟨pm', hpm'⟩ := accepted_of_inputs hin'
  have hk := (accepted_dataOk hg.keys (noNameClash_of_none hna) hi hu hids hpers hin).keys
  obtain ⟨a, ha, d, hd⟩ := density_of_values hqr hpm hm hna hg hkappa custom nan
  obtain ⟨b, hb, d', hd'⟩ := density_of_values hqr' hpm' hm' hna' hg' hkappa' custom' nan'
  have hd := hd val hv
  have hd' := hd' val hv'
  have hsub : ∀ t v, IsUpdate m' t v → IsUpdate m t v := fun t v h => by
    obtain ⟨f, hf, _⟩ := (hw.isUpdate hna t v).mp h
    exact Or.inl ⟨f, hf⟩
  have h1 : ∀ (i : Nat) (cov : Covariates) (y : Nat → String → ℝ), i < ids.length → Describes m df ids pers i cov y → (∀ t v, IsUpdate m t v → ¬IsUpdate m' t v → cov.isObserved t v = false) →
      (out'.allContributions.map (fun row => row.getD i 0)).sum = (out.allContributions.map (fun row => row.getD i 0)).sum ∧
      (NoClipping m → out'.contributions.getD i 0 = out.contributions.getD i 0) := by
    intro i cov y hil hdesc hmiss
    obtain ⟨h2, h3⟩ := hd.loglike df ids pers inputs params out hi hu hids hpers hn hval hin hout i _ y hil (describes_withControls hna hk hdesc)
    obtain ⟨h2', h3'⟩ := hd'.loglike df ids pers inputs' params' out' hi hu hids hpers hn' hval' hin' hout' i _ y hil (hw.describes hm hna hk hdesc)
    set cov' := withControls df ids pers i cov with hcov'
    obtain ⟨Ω, _, P, E, Z, hP, hZ⟩ := exists_randomNoise (fun e he => (hv.positive e he).le) hv.sum
    have hmeas : ∀ u, Measurable (fun ω => observedData u cov' (measurementValue m val cov' (E ω) (fun j => Z j ω))) := fun u =>
      (measurable_observed m val cov' u).comp (hZ.measurable_element.prodMk (measurable_pi_iff.mpr hZ.measurable))
    have heq : d val cov' (observedData a cov' y) = d' val cov' (observedData b cov' y) := by
      refine density_missing ha.nodup hb.nodup (fun x hx => (ha.all x.1 x.2).mpr (hsub _ _ ((hb.all x.1 x.2).mp hx))) cov' ?_ (hmeas a) (hmeas b) (hd.continuous cov') (hd'.continuous cov') (hd.pos cov') (hd'.pos cov')
        (hd.law cov' P E Z hZ) ?_ y
      · intro x hx hxb
        exact hmiss x.1 x.2 ((ha.all x.1 x.2).mp hx) (fun hu' => hxb ((hb.all x.1 x.2).mpr hu'))
      · rw [← hd'.law cov' P E Z hZ]
        congr 1
        funext ω
        exact observed_congr (fun x hx => (measurement_without hw hm hna hg hinf cov' (E ω).isLt _ ((hb.all x.1 x.2).mp hx)).symm)
    exact ⟨by rw [h2, h2', heq], fun hc => by rw [h3 hc, h3' (hclip hc), heq]⟩
  refine ⟨h1, fun hc hall => ?_⟩
  obtain ⟨hl, hvalue⟩ := hd.value df ids pers inputs params out hi hu hids hpers hn hval hin hout
  obtain ⟨hl', hvalue'⟩ := hd'.value df ids pers inputs' params' out' hi hu hids hpers hn' hval' hin' hout'
  have h6 : out'.contributions = out.contributions := by
    refine List.ext_getElem (by rw [hl, hl']) (fun i hi1 hi2 => ?_)
    obtain ⟨cov, y, hdesc, hmiss⟩ := hall i (by omega)
    have := (h1 i cov y (by omega) hdesc hmiss).2 hc
    rwa [List.getD_eq_getElem?_getD, List.getD_eq_getElem?_getD, List.getElem?_eq_getElem hi1, List.getElem?_eq_getElem hi2, Option.getD_some, Option.getD_some] at this
  exact ⟨h6, by rw [hvalue, hvalue', h6]⟩

theorem measurable_noise {Ω : Type} {M : MeasurableSpace Ω} {G : Ω → Noise → ℝ} (h : ∀ j, Measurable (fun ω => G ω j)) : Measurable G := measurable_pi_iff.mpr h

/-- The data of two models are independent if no random number matters for both. -/
theorem indep_data {Ω : Type} [MeasurableSpace Ω] {P : Measure Ω} [IsProbabilityMeasure P] {E : Ω → Fin 1} {Z : Noise → Ω → ℝ} (hZ : RandomNoise P val E Z) (hm' : LinearModel m' 1) (hm2 : LinearModel m2 1) (hna' : m'.anchoring = none)
    (hna2 : m2.anchoring = none) (hg' : GoodNames m') (hg2 : GoodNames m2) (hdis : Disjoint (noiseIn m') (noiseIn m2)) {b c : List (Nat × String)} (hb : ∀ x ∈ b, IsUpdate m' x.1 x.2) (hc : ∀ x ∈ c, IsUpdate m2 x.1 x.2)
    (cov : Covariates) : IndepFun (fun ω => observedData b cov (measurementValue m' val cov (E ω) (fun j => Z j ω))) (fun ω => observedData c cov (measurementValue m2 val cov (E ω) (fun j => Z j ω))) P := by
  classical
  have hE : ∀ ω, E ω = 0 := fun ω => Subsingleton.elim _ _
  have hind := indep_iSup_of_disjoint (fun j => (hZ.measurable j).comap_le) hZ.independent.iIndep hdis
  have key : ∀ {m' : ModelDict ℝ} {b : List (Nat × String)}, LinearModel m' 1 → m'.anchoring = none → GoodNames m' → (∀ x ∈ b, IsUpdate m' x.1 x.2) →
      Measurable[⨆ j ∈ noiseIn m', MeasurableSpace.comap (Z j) inferInstance] (fun ω => observedData b cov (measurementValue m' val cov (E ω) (fun j => Z j ω))) := by
    intro m' b hm' hna' hg' hb
    have e : (fun ω => observedData b cov (measurementValue m' val cov (E ω) (fun j => Z j ω))) =
        (fun z : Noise → ℝ => observedData b cov (measurementValue m' val cov (0 : Fin 1) z)) ∘ fun ω j => if j ∈ noiseIn m' then Z j ω else 0 := by
      funext ω
      rw [hE, Function.comp_apply]
      exact observed_congr (fun x hx => measurement_noise hm' hna' hg' cov _ (fun j hj => by rw [if_pos hj]) (hb x hx))
    have hF : Measurable (fun z : Noise → ℝ => observedData b cov (measurementValue m' val cov (0 : Fin 1) z)) := (measurable_observed m' val cov b).comp (measurable_const.prodMk measurable_id)
    have hG : @Measurable Ω (Noise → ℝ) (⨆ j ∈ noiseIn m', MeasurableSpace.comap (Z j) inferInstance) _ (fun ω j => if j ∈ noiseIn m' then Z j ω else 0) := by
      refine measurable_noise (fun j => ?_)
      by_cases hj : j ∈ noiseIn m'
      · simp only [if_pos hj]
        exact (comap_measurable (Z j)).mono (le_iSup₂ (f := fun j (_ : j ∈ noiseIn m') => MeasurableSpace.comap (Z j) inferInstance) j hj) le_rfl
      · simp only [if_neg hj]
        exact measurable_const
    rw [e]
    exact hF.comp hG
  exact indep_of_indep_of_le_right (indep_of_indep_of_le_left hind (key hm' hna' hg' hb).comap_le) (key hm2 hna2 hg2 hc).comap_le

/-- **C122**: if the factors of a model with linear or constant transition functions form two groups that have nothing to do with each other, then the log likelihood is the sum of the log likelihoods of the models with one group each
(remove_factors and extract_factors): for every individual, the sum of all contributions is the sum of all contributions to both likelihoods, and without clipping the same holds for the contributions of individuals and for the
values. -/
theorem C122_unrelated_factors (hqr : ValidQR qr) (hqr' : ValidQR qr') (hqr2 : ValidQR qr2) (hrem : removeFactors fs m = .ok m') (hext : extractFactors fs m = .ok m2) (hm : LinearModel m 1) (hm' : LinearModel m' 1)
    (hm2 : LinearModel m2 1) (hna : m.anchoring = none) (hg : GoodNames m) (hkappa : ∀ o x, m.estimationOptions = some o → o.sigmaPointsScale = some x → 0 ≤ x) (hv : ProperValues m 1 val) (hunr : Unrelated m fs val)
    (custom custom' custom2 : String → CustomFn) (nan nan' nan2 : ℝ) (hi : IndexOk df) (hu : NoUnusedPeriods df) (hids : IdsOf df ids) (hpers : PeriodsOf df pers) (hn : (params.map Prod.fst).Nodup)
    (hn' : (params'.map Prod.fst).Nodup) (hn2 : (params2.map Prod.fst).Nodup) (hval : ∀ l x, (l, x) ∈ params → x = val l) (hval' : ∀ l x, (l, x) ∈ params' → x = val l) (hval2 : ∀ l x, (l, x) ∈ params2 → x = val l)
    (hin : getMaximizationInputs m df = .ok inputs) (hin' : getMaximizationInputs m' df = .ok inputs') (hin2 : getMaximizationInputs m2 df = .ok inputs2) (hout : inputs.loglike qr custom nan m params = .ok out)
    (hout' : inputs'.loglike qr' custom' nan' m' params' = .ok out') (hout2 : inputs2.loglike qr2 custom2 nan2 m2 params2 = .ok out2) :
    (∀ (i : Nat) (cov : Covariates) (y : Nat → String → ℝ), i < ids.length → Describes m df ids pers i cov y →
      (out.allContributions.map (fun row => row.getD i 0)).sum = (out'.allContributions.map (fun row => row.getD i 0)).sum + (out2.allContributions.map (fun row => row.getD i 0)).sum ∧
      (NoClipping m → out.contributions.getD i 0 = out'.contributions.getD i 0 + out2.contributions.getD i 0)) ∧
    (NoClipping m → (∀ i < ids.length, ∃ cov y, Describes m df ids pers i cov y) → out.value = out'.value + out2.value) := by
  have hw := without_removeFactors hrem
  have hw2 : Without m ((Dict.keys m.factors).filter (fun f => decide (f ∉ fs))) m2 := without_removeFactors hext
  have hmem2 : ∀ f, IsLatent m f → (f ∈ (Dict.keys m.factors).filter (fun f => decide (f ∉ fs)) ↔ f ∉ fs) := by
    intro f hf
    have hf : f ∈ Dict.keys m.factors := (mem_latents_iff m f).mpr hf
    rw [List.mem_filter]
    simp [hf]
  have hlat : ∀ {t v f}, Measures m t v f → IsLatent m f := fun ⟨spec, hs, _⟩ => ⟨spec, hs⟩
  have hinf : NoInfluence m 1 fs val := by
    refine ⟨fun e he f g hf hfs hgl hgs => ?_, fun t f g ht hf hfs hgl hgs => ?_, fun t v f g hf hfs hg' hgs => ?_⟩
    · obtain rfl : e = 0 := by omega
      exact hunr.initial f g hf hgl (fun h => hfs (h.mpr hgs))
    · exact hunr.transition t f g ht hf hgl (fun h => hfs (h.mpr hgs))
    · exact absurd ((hunr.measurements t v f g hf hg').mpr hgs) hfs
  have hinf2 : NoInfluence m 1 ((Dict.keys m.factors).filter (fun f => decide (f ∉ fs))) val := by
    refine ⟨fun e he f g hf hfs hgl hgs => ?_, fun t f g ht hf hfs hgl hgs => ?_, fun t v f g hf hfs hg' hgs => ?_⟩
    · obtain rfl : e = 0 := by omega
      rw [hmem2 f hf] at hfs
      rw [hmem2 g hgl] at hgs
      exact hunr.initial f g hf hgl (fun h => hfs (fun h' => hgs (h.mp h')))
    · rw [hmem2 f (by obtain ⟨spec, hs, _⟩ := hf; exact ⟨spec, hs⟩)] at hfs
      rw [hmem2 g hgl] at hgs
      exact hunr.transition t f g ht hf hgl (fun h => hfs (fun h' => hgs (h.mp h')))
    · rw [hmem2 f (hlat hf)] at hfs
      rw [hmem2 g (hlat hg')] at hgs
      exact absurd (fun h' => hgs ((hunr.measurements t v f g hf hg').mp h')) hfs
  have hna' := hw.anchoring hna
  have hna2 := hw2.anchoring hna
  have hg' := hw.goodNames hna hg
  have hg2 := hw2.goodNames hna hg
  have hv' := hw.properValues hna hv
  have hv2 := hw2.properValues hna hv
  have hclip : NoClipping m → NoClipping m' := fun h => by unfold NoClipping; rw [hw.options]; exact h
  have hclip2 : NoClipping m → NoClipping m2 := fun h => by unfold NoClipping; rw [hw2.options]; exact h
  obtain ⟨pm, hpm⟩ := accepted_of_inputs hin
  obtain ⟨pm', hpm'⟩ := accepted_of_inputs hin'
  obtain ⟨pm2, hpm2⟩ := accepted_of_inputs hin2
  have hk := (accepted_dataOk hg.keys (noNameClash_of_none hna) hi hu hids hpers hin).keys
  obtain ⟨a, ha, d, hd⟩ := density_of_values hqr hpm hm hna hg hkappa custom nan
  obtain ⟨b, hb, d', hd'⟩ := density_of_values hqr' hpm' hm' hna' hg' (by rw [hw.options]; exact hkappa) custom' nan'
  obtain ⟨c, hc, d2, hd2⟩ := density_of_values hqr2 hpm2 hm2 hna2 hg2 (by rw [hw2.options]; exact hkappa) custom2 nan2
  have hd := hd val hv
  have hd' := hd' val hv'
  have hd2 := hd2 val hv2
  have hupd : ∀ t v, IsUpdate m t v ↔ IsUpdate m' t v ∨ IsUpdate m2 t v := by
    intro t v
    rw [hw.isUpdate hna, hw2.isUpdate hna]
    constructor
    · rintro (⟨f, hf⟩ | ⟨_, f, hf⟩)
      · by_cases hfs : f ∈ fs
        · exact Or.inr ⟨f, hf, fun h => (hmem2 f (hlat hf)).mp h hfs⟩
        · exact Or.inl ⟨f, hf, hfs⟩
      · exact absurd hf (no_anchors hna v f)
    · rintro (⟨f, hf, _⟩ | ⟨f, hf, _⟩) <;> exact Or.inl ⟨f, hf⟩
  have hboth : ∀ t v, IsUpdate m' t v → ¬IsUpdate m2 t v := by
    intro t v h1 h2
    rw [hw.isUpdate hna] at h1
    rw [hw2.isUpdate hna] at h2
    obtain ⟨f, hf, hfs⟩ := h1
    obtain ⟨g, hgm, hgs⟩ := h2
    rw [hmem2 g (hlat hgm), not_not] at hgs
    exact hfs ((hunr.measurements t v f g hf hgm).mpr hgs)
  have hdis : Disjoint (noiseIn m') (noiseIn m2) := by
    have hl : ∀ f, IsLatent m' f → ¬IsLatent m2 f := by
      intro f h1 h2
      rw [hw.isLatent] at h1
      rw [hw2.isLatent] at h2
      exact h2.2 ((hmem2 f h1.1).mpr h1.2)
    rw [Set.disjoint_left]
    rintro (f | ⟨t, f⟩ | ⟨t, v⟩) h1 h2
    · exact hl f h1 h2
    · exact hl f h1 h2
    · exact hboth t v h1 h2
  have h1 : ∀ (i : Nat) (cov : Covariates) (y : Nat → String → ℝ), i < ids.length → Describes m df ids pers i cov y →
      (out.allContributions.map (fun row => row.getD i 0)).sum = (out'.allContributions.map (fun row => row.getD i 0)).sum + (out2.allContributions.map (fun row => row.getD i 0)).sum ∧
      (NoClipping m → out.contributions.getD i 0 = out'.contributions.getD i 0 + out2.contributions.getD i 0) := by
    intro i cov y hil hdesc
    obtain ⟨h2, h3⟩ := hd.loglike df ids pers inputs params out hi hu hids hpers hn hval hin hout i _ y hil (describes_withControls hna hk hdesc)
    obtain ⟨h2', h3'⟩ := hd'.loglike df ids pers inputs' params' out' hi hu hids hpers hn' hval' hin' hout' i _ y hil (hw.describes hm hna hk hdesc)
    obtain ⟨h22, h32⟩ := hd2.loglike df ids pers inputs2 params2 out2 hi hu hids hpers hn2 hval2 hin2 hout2 i _ y hil (hw2.describes hm hna hk hdesc)
    set cov' := withControls df ids pers i cov with hcov'
    obtain ⟨Ω, _, P, E, Z, hP, hZ⟩ := exists_randomNoise (fun e he => (hv.positive e he).le) hv.sum
    have hmeas : ∀ u, Measurable (fun ω => observedData u cov' (measurementValue m val cov' (E ω) (fun j => Z j ω))) := fun u =>
      (measurable_observed m val cov' u).comp (hZ.measurable_element.prodMk (measurable_pi_iff.mpr hZ.measurable))
    have eb : (fun ω => observedData b cov' (measurementValue m val cov' (E ω) (fun j => Z j ω))) = fun ω => observedData b cov' (measurementValue m' val cov' (E ω) (fun j => Z j ω)) := by
      funext ω
      exact observed_congr (fun x hx => (measurement_without hw hm hna hg hinf cov' (E ω).isLt _ ((hb.all x.1 x.2).mp hx)).symm)
    have ec : (fun ω => observedData c cov' (measurementValue m val cov' (E ω) (fun j => Z j ω))) = fun ω => observedData c cov' (measurementValue m2 val cov' (E ω) (fun j => Z j ω)) := by
      funext ω
      exact observed_congr (fun x hx => (measurement_without hw2 hm hna hg hinf2 cov' (E ω).isLt _ ((hc.all x.1 x.2).mp hx)).symm)
    have heq : d val cov' (observedData a cov' y) = d' val cov' (observedData b cov' y) * d2 val cov' (observedData c cov' y) := by
      refine density_split ha.nodup hb.nodup hc.nodup (fun x => ?_) (fun x hx hx2 => hboth x.1 x.2 ((hb.all x.1 x.2).mp hx) ((hc.all x.1 x.2).mp hx2)) cov' (hmeas a) (hmeas b) (hmeas c) ?_ (hd.continuous cov') (hd'.continuous cov')
        (hd2.continuous cov') (hd.pos cov') (hd'.pos cov') (hd2.pos cov') (hd.law cov' P E Z hZ) ?_ ?_ y
      · rw [ha.all x.1 x.2, hb.all x.1 x.2, hc.all x.1 x.2, hupd]
      · rw [eb, ec]
        exact indep_data hZ hm' hm2 hna' hna2 hg' hg2 hdis (fun x hx => (hb.all x.1 x.2).mp hx) (fun x hx => (hc.all x.1 x.2).mp hx) cov'
      · rw [eb, hd'.law cov' P E Z hZ]
      · rw [ec, hd2.law cov' P E Z hZ]
    have hlog : Real.log (d val cov' (observedData a cov' y)) = Real.log (d' val cov' (observedData b cov' y)) + Real.log (d2 val cov' (observedData c cov' y)) := by
      rw [heq, Real.log_mul (hd'.pos _ _).ne' (hd2.pos _ _).ne']
    exact ⟨by rw [h2, h2', h22, hlog], fun hcl => by rw [h3 hcl, h3' (hclip hcl), h32 (hclip2 hcl), hlog]⟩
  refine ⟨h1, fun hcl hall => ?_⟩
  obtain ⟨hl, hvalue⟩ := hd.value df ids pers inputs params out hi hu hids hpers hn hval hin hout
  obtain ⟨hl', hvalue'⟩ := hd'.value df ids pers inputs' params' out' hi hu hids hpers hn' hval' hin' hout'
  obtain ⟨hl2, hvalue2⟩ := hd2.value df ids pers inputs2 params2 out2 hi hu hids hpers hn2 hval2 hin2 hout2
  rw [hvalue, hvalue', hvalue2, sum_range_getD, sum_range_getD, sum_range_getD, hl, hl', hl2, ← Finset.sum_add_distrib]
  refine Finset.sum_congr rfl (fun i hi' => ?_)
  obtain ⟨cov, y, hdesc⟩ := hall i (Finset.mem_range.mp hi')
  exact (h1 i cov y (Finset.mem_range.mp hi') hdesc).2 hcl
end
end Skill
