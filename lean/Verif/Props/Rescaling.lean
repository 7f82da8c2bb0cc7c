import Verif.Props.ObservationalEquivalence
import Verif.Lemmas.Rescaling
/-
C103: the scale and location of latent factors, anchoring. C104: normalizations.
-/
namespace Skill
open Matrix MeasureTheory ProbabilityTheory Spec

section
variable {qr qr' : QR} {m : ModelDict ℝ} {pm : Processed ℝ} {k : ℕ} {val val' : Loc → ℝ} {df : LongData ℝ} {ids pers : List Int} {inputs : MaximizationInputs} {params params' : List (Loc × ℝ)} {out out' : LoglikeOutput} {c d : ℕ → String → ℝ}

/-- **C103.** Change the scale and the location of latent factors (`x` in period t becomes `c t f * x + d t f`) and adjust the parameters: the means and Cholesky factors of the initial factors, the standard deviations of shocks, the loadings
and intercepts of measurements, and the parameters of the transition functions. Then `loglike` returns the same results, for every dataset, with and without clipping. In the transition functions only factors that are not anchored count:
if all factors are anchored then the parameters of transition functions do not change at all (see `unitScale` and `unitShift`), so they do not depend on the scale and location of latent factors. -/
theorem C103_rescaling (hqr : ValidQR qr) (hqr' : ValidQR qr') (hpm : processModel m = .ok pm) (hm : LinearModel m k) (hanch : m.anchoring = none ∨ k = 1) (hg : GoodNames m)
    (hkappa : ∀ o x, m.estimationOptions = some o → o.sigmaPointsScale = some x → 0 ≤ x) (hc : CanRescale m c d) (hr : Rescales m c d val val') (hv : ProperValues m k val) (custom custom' : String → CustomFn) (nan nan' : ℝ)
    (hi : IndexOk df) (hu : NoUnusedPeriods df) (hids : IdsOf df ids) (hpers : PeriodsOf df pers) (hn : (params.map Prod.fst).Nodup) (hn' : (params'.map Prod.fst).Nodup) (hval : ∀ l x, (l, x) ∈ params → x = val l)
    (hval' : ∀ l x, (l, x) ∈ params' → x = val' l) (hin : getMaximizationInputs m df = .ok inputs) (hout : inputs.loglike qr custom nan m params = .ok out) (hout' : inputs.loglike qr' custom' nan' m params' = .ok out') :
    (∀ (i : Nat) (cov : Covariates) (y : Nat → String → ℝ), i < ids.length → Describes m df ids pers i cov y →
      (∀ j, (out'.allContributions.getD j []).getD i 0 = (out.allContributions.getD j []).getD i 0) ∧ out'.contributions.getD i 0 = out.contributions.getD i 0) ∧
    ((∀ i < ids.length, ∃ cov y, Describes m df ids pers i cov y) → out' = out) := by
  obtain ⟨Ω, hΩ, P, E, Z, hP, hZ⟩ := exists_randomNoise (fun e he => (hv.positive e he).le) hv.sum
  have hZ' : RandomNoise P val' E Z := ⟨hZ.measurable_element, hZ.measurable, hZ.normal, hZ.independent, hZ.element_independent, fun e => by rw [hr.weights, hZ.element_weights]⟩
  refine C102_same_model hqr hqr' hpm hm hanch hg hkappa hv (hr.proper hc hg hm.anchoring.1 hv) hZ hZ' ?_ custom custom' nan nan' hi hu hids hpers hn hn' hval hval' hin hout hout'
  intro updates hup cov hone
  congr 1
  funext ω
  funext j
  unfold observedData
  split_ifs with ho
  · have hupd := (hup.all _ _).mp (List.get_mem updates j)
    rw [rescaled_measurement hr hc hg hm.anchoring.1 hv.scales cov (E ω) _ (update_period hm _ _ hupd) _ (hone _ _ hupd ho)]
  · rfl

/-- If all latent factors are anchored then a change of their scale and location does not change the parameters of transition functions. -/
theorem C103_anchored_transitions (hr : Rescales m c d val val') (hall : ∀ f, IsLatent m f → ∃ o, AnchoredIn m f o) (t : ℕ) {f : String} (hf : IsLatent m f) :
    (∀ g ∈ allFactors m, val' ⟨.transition, t, f, g⟩ = val ⟨.transition, t, f, g⟩) ∧ val' ⟨.transition, t, f, "constant"⟩ = val ⟨.transition, t, f, "constant"⟩ := by
  have h1 : ∀ t g, unitScale m c t g = 1 := fun t g => by
    unfold unitScale
    exact if_neg (fun h => h.2 (hall g h.1))
  have h2 : ∀ t g, unitShift m d t g = 0 := fun t g => by
    unfold unitShift
    exact if_neg (fun h => h.2 (hall g h.1))
  refine ⟨fun g hgf => by rw [hr.coefficients t f g hf hgf, h1, h1]; ring, ?_⟩
  rw [hr.constants t f hf]
  simp [h1, h2]
end

section
variable {m : ModelDict ℝ} {c d : ℕ → String → ℝ} {val : Loc → ℝ}

open Classical in
/-- The values of parameters after a change of scale and location. -/
noncomputable def rescaledValues (m : ModelDict ℝ) (c d : ℕ → String → ℝ) (val : Loc → ℝ) (l : Loc) : ℝ :=
  match l.cat with
  | .mixtureWeights => val l
  | .measSds => val l
  | .initialStates => c 0 l.name2 * val l + d 0 l.name2
  | .initialCholcovs => if h : ∃ f g, IsLatent m f ∧ l.name2 = f ++ "-" ++ g then c 0 h.choose * val l else val l
  | .loadings => val l / c l.period l.name2
  | .controls => if l.name2 = "constant" then
      val l - ((latents m).map (fun f => if Loads m l.period l.name1 f then val ⟨.loadings, l.period, l.name1, f⟩ / c l.period f * d l.period f else 0)).sum
    else val l
  | .shockSds => c (l.period + 1) l.name1 * val l
  | .transition => if l.name2 = "constant" then unitScale m c (l.period + 1) l.name1 * val l + unitShift m d (l.period + 1) l.name1 -
      ((allFactors m).map (fun g => unitScale m c (l.period + 1) l.name1 * val ⟨.transition, l.period, l.name1, g⟩ / unitScale m c l.period g * unitShift m d l.period g)).sum
    else unitScale m c (l.period + 1) l.name1 * val l / unitScale m c l.period l.name2

theorem rescaledValues_rescales (hg : GoodNames m) : Rescales m c d val (rescaledValues m c d val) where
  weights _ := rfl
  means _ _ _ := rfl
  cholcovs e f g hf hgl := by
    classical
    have hex : ∃ f' g', IsLatent m f' ∧ f ++ "-" ++ g = f' ++ "-" ++ g' := ⟨f, g, hf, rfl⟩
    have hname : hex.choose = f := by
      obtain ⟨g', hf', h⟩ := hex.choose_spec
      have hmem : ∀ {f}, IsLatent m f → f ∈ allFactors m := fun {f} hl => List.mem_append_left _ ((mem_latents_iff m f).mpr hl)
      exact ((hyphen_inj (hg.chars _ (hmem hf)).1 (hg.chars _ (hmem hf')).1 h).1).symm
    show (if h : ∃ f' g', IsLatent m f' ∧ f ++ "-" ++ g = f' ++ "-" ++ g' then c 0 h.choose * val _ else val _) = _
    rw [dif_pos hex, hname]
  loadings _ _ _ _ _ := rfl
  intercepts _ _ := rfl
  controls t v x hx := if_neg hx
  measSds _ _ := rfl
  shockSds _ _ _ := rfl
  coefficients t f g _ hgf := if_neg (hg.reserved g hgf).1
  constants _ _ _ := rfl

end

/-- **C104.** Normalizations of loadings and intercepts are no restriction, as long as there is at most one normalized loading and one normalized intercept for each factor and period, of measurements that measure only this factor: consider a
model without anchoring in which all transition functions are "linear", and any values of its parameters for which the loadings in question are not zero and have the signs of the normalized values. Then there are other values of the parameters that satisfy all
constraints that fix parameters to a value (`ShouldFix`), keep the signs of standard deviations and Cholesky factors and the order of the initial means of mixture elements, and for which `loglike` returns the same results, for
every dataset. -/
theorem C104_normalizations {m : ModelDict ℝ} {pm : Processed ℝ} (hpm : processModel m = .ok pm) {k : ℕ} (hm : LinearModel m k) (hna : m.anchoring = none) (hg : GoodNames m)
    (hkappa : ∀ o x, m.estimationOptions = some o → o.sigmaPointsScale = some x → 0 ≤ x) (hlin : ∀ f, ¬HasTransition m f "constant") {val : Loc → ℝ} (hv : ProperValues m k val)
    (hload : ∀ t f v x, IsLoadingNorm m t f v x → (∀ g, Measures m t v g ↔ g = f) ∧ 0 < val ⟨.loadings, t, v, f⟩ * x ∧ ∀ v' x', IsLoadingNorm m t f v' x' → v' = v ∧ x' = x)
    (hint : ∀ t f v x, IsInterceptNorm m t f v x → (∀ g, Measures m t v g ↔ g = f) ∧ val ⟨.loadings, t, v, f⟩ ≠ 0 ∧ ∀ v' x', IsInterceptNorm m t f v' x' → v' = v ∧ x' = x) :
    ∃ val', ProperValues m k val' ∧ (∀ l x, ShouldFix m l x → val' l = x) ∧ (∀ l, l.cat = .measSds ∨ l.cat = .shockSds ∨ l.cat = .initialCholcovs ∨ l.cat = .mixtureWeights → 0 ≤ val l → 0 ≤ val' l) ∧
      (∀ e e' f, IsLatent m f → val ⟨.initialStates, 0, Spec.mixtureName e, f⟩ ≤ val ⟨.initialStates, 0, Spec.mixtureName e', f⟩ → val' ⟨.initialStates, 0, Spec.mixtureName e, f⟩ ≤ val' ⟨.initialStates, 0, Spec.mixtureName e', f⟩) ∧
      ∀ (qr qr' : QR) (custom custom' : String → CustomFn) (nan nan' : ℝ) (df : LongData ℝ) (ids pers : List Int) (inputs : MaximizationInputs) (params params' : List (Loc × ℝ)) (out out' : LoglikeOutput), ValidQR qr → ValidQR qr' →
        IndexOk df → NoUnusedPeriods df → IdsOf df ids → PeriodsOf df pers → (params.map Prod.fst).Nodup → (params'.map Prod.fst).Nodup → (∀ l x, (l, x) ∈ params → x = val l) → (∀ l x, (l, x) ∈ params' → x = val' l) →
        getMaximizationInputs m df = .ok inputs → inputs.loglike qr custom nan m params = .ok out → inputs.loglike qr' custom' nan' m params' = .ok out' →
        (∀ (i : Nat) (cov : Covariates) (y : Nat → String → ℝ), i < ids.length → Describes m df ids pers i cov y →
          (∀ j, (out'.allContributions.getD j []).getD i 0 = (out.allContributions.getD j []).getD i 0) ∧ out'.contributions.getD i 0 = out.contributions.getD i 0) ∧
        ((∀ i < ids.length, ∃ cov y, Describes m df ids pers i cov y) → out' = out) := by
  classical
  let c : ℕ → String → ℝ := fun t f => if h : ∃ v x, IsLoadingNorm m t f v x then val ⟨.loadings, t, h.choose, f⟩ / h.choose_spec.choose else 1
  let d : ℕ → String → ℝ := fun t f => if h : ∃ v x, IsInterceptNorm m t f v x then (val ⟨.controls, t, h.choose, "constant"⟩ - h.choose_spec.choose) * c t f / val ⟨.loadings, t, h.choose, f⟩ else 0
  have hcpos : ∀ t f, 0 < c t f := by
    intro t f
    simp only [c]
    split_ifs with h
    · have h1 := (hload t f _ _ h.choose_spec.choose_spec).2.1
      rcases pos_and_pos_or_neg_and_neg_of_mul_pos h1 with ⟨h2, h3⟩ | ⟨h2, h3⟩
      · exact div_pos h2 h3
      · exact div_pos_of_neg_of_neg h2 h3
    · exact one_pos
  have hcval : ∀ t f v x, IsLoadingNorm m t f v x → c t f = val ⟨.loadings, t, v, f⟩ / x := by
    intro t f v x h
    have hex : ∃ v x, IsLoadingNorm m t f v x := ⟨v, x, h⟩
    obtain ⟨h1, h2⟩ := (hload t f v x h).2.2 _ _ hex.choose_spec.choose_spec
    simp only [c]
    rw [dif_pos hex, h2, h1]
  have hdval : ∀ t f v x, IsInterceptNorm m t f v x → d t f = (val ⟨.controls, t, v, "constant"⟩ - x) * c t f / val ⟨.loadings, t, v, f⟩ := by
    intro t f v x h
    have hex : ∃ v x, IsInterceptNorm m t f v x := ⟨v, x, h⟩
    obtain ⟨h1, h2⟩ := (hint t f v x h).2.2 _ _ hex.choose_spec.choose_spec
    simp only [d]
    rw [dif_pos hex, h2, h1]
  have hno : ∀ f o, ¬AnchoredIn m f o := by
    rintro f o ⟨a, ha, _⟩
    rw [hna] at ha
    cases ha
  have hcan : CanRescale m c d := ⟨fun t f _ => (hcpos t f).ne', fun t f h => absurd h (hlin f), fun _ t f o h => absurd h (hno f o)⟩
  have hr : Rescales m c d val (rescaledValues m c d val) := rescaledValues_rescales hg
  refine ⟨rescaledValues m c d val, hr.proper hcan hg hm.anchoring.1 hv, ?_, ?_, ?_, ?_⟩
  · intro l x hfix
    cases hfix with
    | @loading f spec t v x hmem hnorm =>
      have hL : IsLoadingNorm m t f v x := ⟨spec, hmem, hnorm⟩
      obtain ⟨h1, h2, _⟩ := hload t f v x hL
      have hv0 : val ⟨.loadings, t, v, f⟩ ≠ 0 := left_ne_zero_of_mul h2.ne'
      have hx0 : x ≠ 0 := right_ne_zero_of_mul h2.ne'
      rw [hr.loadings t v f ⟨spec, hmem⟩ (Or.inl ((h1 f).mpr rfl)), hcval t f v x hL]
      field_simp
    | @intercept f spec t v x hmem hnorm =>
      have hI : IsInterceptNorm m t f v x := ⟨spec, hmem, hnorm⟩
      obtain ⟨h1, h2, _⟩ := hint t f v x hI
      have hL : ∀ g, Loads m t v g ↔ g = f := by
        intro g
        unfold Loads
        rw [h1]
        exact ⟨fun h => h.elim id (fun ⟨o, ho, _⟩ => absurd ho (hno g o)), Or.inl⟩
      have hsum : ((latents m).map (fun g => if Loads m t v g then val ⟨.loadings, t, v, g⟩ / c t g * d t g else 0)).sum = val ⟨.loadings, t, v, f⟩ / c t f * d t f := by
        simp only [hL]
        rw [← List.sum_toFinset (l := latents m) _ hg.keys.factors]
        rw [Finset.sum_ite_eq', if_pos]
        exact List.mem_toFinset.mpr ((mem_latents_iff m f).mpr ⟨spec, hmem⟩)
      rw [hr.intercepts, hsum, hdval t f v x hI]
      have := (hcpos t f).ne'
      field_simp
      ring
    | weight h1 =>
      have hk : k = 1 := by
        obtain ⟨o, ho, h⟩ := h1
        obtain ⟨o', ho', h'⟩ := hm.mixture
        obtain rfl := Option.some.inj (ho.symm.trans ho')
        rcases h with h | ⟨h, _⟩ <;> rcases h' with h' | ⟨h', h''⟩
        · rw [h] at h'
          exact (Option.some.inj h').symm
        · rw [h] at h'
          cases h'
        · rw [h] at h'
          cases h'
        · exact h''
      subst hk
      have := hv.sum
      rw [Fin.sum_univ_one] at this
      exact (hr.weights 0).trans this
    | @shock f spec t hmem hname _ =>
      exfalso
      rcases hm.transitions f spec hmem with h | h
      · rw [h] at hname
        exact absurd hname (by unfold TransitionName; decide)
      · exact hlin f ⟨spec, hmem, h⟩
    | anchorConstant _ h _ =>
      obtain ⟨o, ho, _⟩ := h
      exact absurd ho (hno _ _)
    | anchorControl _ h _ _ _ =>
      obtain ⟨o, ho, _⟩ := h
      exact absurd ho (hno _ _)
    | anchorLoading _ h _ _ =>
      obtain ⟨o, ho, _⟩ := h
      exact absurd ho (hno _ _)
  · rintro ⟨cat, t, n1, n2⟩ hcat h0
    dsimp only at hcat
    rcases hcat with rfl | rfl | rfl | rfl
    · exact h0
    · exact mul_nonneg (hcpos _ _).le h0
    · show 0 ≤ if h : ∃ f g, IsLatent m f ∧ n2 = f ++ "-" ++ g then c 0 h.choose * val _ else val _
      split_ifs with h
      · exact mul_nonneg (hcpos _ _).le h0
      · exact h0
    · exact h0
  · intro e e' f hf hle
    rw [hr.means e f hf, hr.means e' f hf]
    have := mul_le_mul_of_nonneg_left hle (hcpos 0 f).le
    linarith
  · intro qr qr' custom custom' nan nan' df ids pers inputs params params' out out' hqr hqr' hi hu hids hpers hn hn' hval hval' hin hout hout'
    exact C103_rescaling hqr hqr' hpm hm (Or.inl hna) hg hkappa hcan hr hv custom custom' nan nan' hi hu hids hpers hn hn' hval hval' hin hout hout'

end Skill
