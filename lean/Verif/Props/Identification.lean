import Verif.Spec.Identification
import Verif.Lemmas.Moments
import Verif.Props.MaximumLikelihoodExamples

/-! C119: the parameters of linear models with normalizations and enough measurements are identified. -/

namespace Skill
open Matrix MeasureTheory ProbabilityTheory Spec
open scoped Topology

variable {m : ModelDict ℝ}

open Classical in
/-- The state space model of a linear model without anchoring, controls and observed factors. -/
noncomputable def systemOf (m : ModelDict ℝ) (val : Loc → ℝ) : System (nLat m) where
  mu i := val ⟨.initialStates, 0, Spec.mixtureName 0, latName m i⟩
  L := fun i j => cholEntry m val 0 (latName m i) (latName m j)
  A t := fun i => if HasTransition m (latName m i) "constant" then Pi.single i 1 else fun j => val ⟨.transition, t, latName m i, latName m j⟩
  c t i := if HasTransition m (latName m i) "constant" then 0 else val ⟨.transition, t, latName m i, "constant"⟩
  q t i := val ⟨.shockSds, t, latName m i, "-"⟩
  eq t := { h := fun v i => if Measures m t v (latName m i) then val ⟨.loadings, t, v, latName m i⟩ else 0
            s := fun v => val ⟨.measSds, t, v, "-"⟩
            b := fun v => val ⟨.controls, t, v, "constant"⟩ }

/-- The random numbers of a system. -/
def noiseOf (m : ModelDict ℝ) : (Fin (nLat m) ⊕ (ℕ × Fin (nLat m))) ⊕ (ℕ × String) → Noise
  | .inl (.inl i) => .start (latName m i)
  | .inl (.inr (t, i)) => .shock t (latName m i)
  | .inr (t, v) => .error t v

theorem noiseOf_injective (hg : GoodNames m) : Function.Injective (noiseOf m) := by
  rintro ((i | ⟨t, i⟩) | ⟨t, v⟩) ((j | ⟨s, j⟩) | ⟨s, w⟩) h <;> simp only [noiseOf, Noise.start.injEq, Noise.shock.injEq, Noise.error.injEq, reduceCtorEq] at h
  · rw [latName_injective hg h]
  · rw [h.1, latName_injective hg h.2]
  · rw [h.1, h.2]

theorem sum_latents (f : String → ℝ) : ((latents m).map f).sum = ∑ i : Fin (nLat m), f (latName m i) := by
  rw [latents_ofFn, List.map_ofFn, List.sum_ofFn]
  rfl

theorem generated (hg : GoodNames m) (hna : m.anchoring = none) (hcon : m.controls.getD [] = []) (hobs : m.observedFactors.getD [] = []) (val : Loc → ℝ) {Ω : Type} (Z : Noise → Ω → ℝ) :
    Generated (systemOf m val) (fun j => Z (noiseOf m j)) (fun t i ω => latentStates m val noCovariates 0 (fun j => Z j ω) t (latName m i)) (fun t v ω => measurementValue m val noCovariates 0 (fun j => Z j ω) t v) where
  start i ω := by
    show startState m val 0 _ _ = _
    rw [start_sum hg, sum_latents]
    rfl
  next t i ω := by
    have hout : ∀ f, outcome m f = none := fun f => by simp [outcome, hna]
    have hscale : ∀ t f, anchorScale m val t f = 1 := fun t f => by simp [anchorScale, hout]
    have hconst : ∀ t f, anchorConstant m val t f = 0 := fun t f => by simp [anchorConstant, hout]
    have hall : allFactors m = latents m := by rw [allFactors, hobs, List.append_nil]; rfl
    simp only [latentStates, nextState, nextAnchored, anchoredValue, hscale, hconst, zero_add, one_mul, sub_zero, div_one, systemOf]
    congr 1
    by_cases hc : HasTransition m (latName m i) "constant"
    · rw [if_pos hc, if_pos hc, if_pos hc, if_pos (latName_mem i), zero_add, Finset.sum_eq_single i]
      · rw [Pi.single_eq_same, one_mul]
      · intro j _ hj
        rw [Pi.single_eq_of_ne hj, zero_mul]
      · simp
    · rw [if_neg hc, if_neg hc, if_neg hc, linearValue, linearTerms, hall, sum_latents, add_comm]
      congr 1
      exact Finset.sum_congr rfl (fun j _ => by rw [if_pos (latName_mem j)])
  measurement t v ω := by
    have hanch : ∀ f, ¬Anchors m v f := by
      rintro f ⟨o, ⟨a, ha, _⟩, _⟩
      rw [hna] at ha
      cases ha
    simp only [measurementValue, hcon, List.map_cons, List.map_nil, List.sum_cons, List.sum_nil, add_zero, sum_latents, systemOf]
    congr 2
    · exact mul_one _
    · refine Finset.sum_congr rfl (fun i _ => ?_)
      by_cases hM : Measures m t v (latName m i)
      · rw [if_pos (Or.inl hM), if_pos hM]
      · rw [if_neg (by rintro (h | h); exacts [hM h, hanch _ h]), if_neg hM, zero_mul]

theorem white_noise {Ω : Type} [MeasurableSpace Ω] {P : Measure Ω} [IsProbabilityMeasure P] {val : Loc → ℝ} {k : ℕ} {E : Ω → Fin k} {Z : Noise → Ω → ℝ} (hg : GoodNames m) (hZ : RandomNoise P val E Z) : White P (fun j => Z (noiseOf m j)) :=
  white_of_normal (fun j => hZ.measurable _) (fun j => hZ.normal _) (hZ.independent.precomp (noiseOf_injective hg))

/-- Measurements with the same distribution have the same means and covariances. -/
theorem sameMoments (hg : GoodNames m) (hna : m.anchoring = none) (hcon : m.controls.getD [] = []) (hobs : m.observedFactors.getD [] = []) {val0 val : Loc → ℝ} {Ω Ω' : Type} [MeasurableSpace Ω] [MeasurableSpace Ω']
    {P : Measure Ω} {P' : Measure Ω'} [IsProbabilityMeasure P] [IsProbabilityMeasure P'] {E : Ω → Fin 1} {E' : Ω' → Fin 1} {Z : Noise → Ω → ℝ} {Z' : Noise → Ω' → ℝ} (hZ : RandomNoise P val0 E Z) (hZ' : RandomNoise P' val E' Z')
    {updates : List (ℕ × String)} (hup : Enumerates m updates)
    (h : P.map (fun ω => observedData updates noCovariates (measurementValue m val0 noCovariates (E ω) (fun j => Z j ω))) = P'.map (fun ω => observedData updates noCovariates (measurementValue m val noCovariates (E' ω) (fun j => Z' j ω))))
    (T : ℕ) : SameMoments T (IsUpdate m) (systemOf m val0) (systemOf m val) := by
  have hE : ∀ ω, (E ω).val = 0 := fun ω => by omega
  have hE' : ∀ ω, (E' ω).val = 0 := fun ω => by omega
  have hgen := generated hg hna hcon hobs val0 Z
  have hgen' := generated hg hna hcon hobs val Z'
  have hw := white_noise hg hZ
  have hw' := white_noise hg hZ'
  have hmeas : AEMeasurable (fun ω => observedData updates noCovariates (measurementValue m val0 noCovariates (E ω) (fun j => Z j ω))) P :=
    ((measurable_observed m val0 noCovariates updates).comp (hZ.measurable_element.prodMk (measurable_pi_iff.mpr hZ.measurable))).aemeasurable
  have hmeas' : AEMeasurable (fun ω => observedData updates noCovariates (measurementValue m val noCovariates (E' ω) (fun j => Z' j ω))) P' :=
    ((measurable_observed m val noCovariates updates).comp (hZ'.measurable_element.prodMk (measurable_pi_iff.mpr hZ'.measurable))).aemeasurable
  have hval : ∀ t v, IsUpdate m t v → ∃ a : Fin updates.length, (∀ ω, observedData updates noCovariates (measurementValue m val0 noCovariates (E ω) (fun j => Z j ω)) a = measurementValue m val0 noCovariates 0 (fun j => Z j ω) t v) ∧
      ∀ ω, observedData updates noCovariates (measurementValue m val noCovariates (E' ω) (fun j => Z' j ω)) a = measurementValue m val noCovariates 0 (fun j => Z' j ω) t v := fun t v hv => by
    obtain ⟨a, ha⟩ := List.get_of_mem ((hup.all t v).mpr hv)
    refine ⟨a, fun ω => ?_, fun ω => ?_⟩
    · show (if true = true then _ else _) = _
      rw [if_pos rfl, ha, hE]
    · show (if true = true then _ else _) = _
      rw [if_pos rfl, ha, hE']
  have hcov : ∀ t v s w, IsUpdate m t v → IsUpdate m s w → cov[fun ω => measurementValue m val0 noCovariates 0 (fun j => Z j ω) t v, fun ω => measurementValue m val0 noCovariates 0 (fun j => Z j ω) s w; P] =
      cov[fun ω => measurementValue m val noCovariates 0 (fun j => Z' j ω) t v, fun ω => measurementValue m val noCovariates 0 (fun j => Z' j ω) s w; P'] := by
    intro t v s w hv hw
    obtain ⟨a, ha, ha'⟩ := hval t v hv
    obtain ⟨b, hb, hb'⟩ := hval s w hw
    simp_rw [← ha, ← hb, ← ha', ← hb']
    have h1 := covariance_map_fun (X := fun y : Fin updates.length → ℝ => y a) (Y := fun y : Fin updates.length → ℝ => y b) (measurable_pi_apply a).aestronglyMeasurable (measurable_pi_apply b).aestronglyMeasurable hmeas
    have h2 := covariance_map_fun (X := fun y : Fin updates.length → ℝ => y a) (Y := fun y : Fin updates.length → ℝ => y b) (measurable_pi_apply a).aestronglyMeasurable (measurable_pi_apply b).aestronglyMeasurable hmeas'
    rw [← h1, ← h2, h]
  refine ⟨fun t _ v hv => ?_, fun t _ v w hv hw2 => ?_, fun t _ v w hv hw2 => ?_⟩
  · rw [← hgen.measurement_mean hw, ← hgen'.measurement_mean hw']
    obtain ⟨a, ha, ha'⟩ := hval t v hv
    simp_rw [← ha, ← ha']
    have h1 := integral_map (f := fun y : Fin updates.length → ℝ => y a) hmeas (measurable_pi_apply a).aestronglyMeasurable
    have h2 := integral_map (f := fun y : Fin updates.length → ℝ => y a) hmeas' (measurable_pi_apply a).aestronglyMeasurable
    rw [← h1, ← h2, h]
  · rw [← hgen.measurement_cov hw, ← hgen'.measurement_cov hw']
    exact hcov t v t w hv hw2
  · rw [← hgen.measurement_cross hw, ← hgen'.measurement_cross hw']
    exact hcov t v (t + 1) w hv hw2

/-- **C119.** A model with linear or constant transition functions and one mixture element, without anchoring, controls and observed factors, is identified if each factor has in each period three measurements of its own and the loading and the
intercept of one of them are normalized: whenever admissible values `val` of the parameters differ from the true values `val0` (with which no factor is a linear function of the others), the data are distributed differently. -/
theorem C119_identified (hg : GoodNames m) (hm : LinearModel m 1) (hna : m.anchoring = none) (hcon : m.controls.getD [] = []) (hobs : m.observedFactors.getD [] = []) {val0 val : Loc → ℝ} (hv0 : ProperValues m 1 val0) (hv : ProperValues m 1 val)
    (hown : HasOwnMeasurements m val0) (hnorm0 : Normalized m val0) (hnorm : Normalized m val) (hcol : NotCollinear m val0) (hne : ∃ l, IsParam m l ∧ val l ≠ val0 l) : DataDiffer m 1 val0 val noCovariates := by
  intro Ω Ω' _ _ P P' _ _ E E' Z Z' hZ hZ' updates hup h
  obtain ⟨l, hl, hne⟩ := hne
  refine hne (Eq.symm ?_)
  obtain ⟨T, hT, h1T⟩ := hm.periods
  have hperiod : ∀ t, IsPeriod m t ↔ t < T := fun t => ⟨fun ⟨n, hn, ht⟩ => by rwa [IsNPeriods.unique hT hn], fun ht => ⟨T, hT, ht⟩⟩
  have hlat : ∀ i : Fin (nLat m), IsLatent m (latName m i) := fun i => by
    obtain ⟨⟨f, spec⟩, h1, h2⟩ := List.mem_map.mp (latName_mem i)
    exact ⟨spec, h2 ▸ h1⟩
  have hidx : ∀ f, IsLatent m f → ∃ i : Fin (nLat m), latName m i = f := fun f hf => by
    obtain ⟨spec, hs⟩ := hf
    have : f ∈ latents m := List.mem_map.mpr ⟨_, hs, rfl⟩
    rw [latents_ofFn] at this
    exact List.mem_ofFn.mp this
  have hmom := sameMoments hg hna hcon hobs hZ hZ' hup h T
  have hch : ∀ t, ∃ v1 v2 v3 : Fin (nLat m) → String, t < T → ∀ i, v1 i ≠ v2 i ∧ v1 i ≠ v3 i ∧ v2 i ≠ v3 i ∧ MeasuresOnly m t (v1 i) (latName m i) ∧ MeasuresOnly m t (v2 i) (latName m i) ∧ MeasuresOnly m t (v3 i) (latName m i) ∧
      (∃ x, x ≠ 0 ∧ IsLoadingNorm m t (latName m i) (v1 i) x) ∧ (∃ g x, IsInterceptNorm m t g (v1 i) x) ∧ val0 ⟨.loadings, t, v2 i, latName m i⟩ ≠ 0 ∧ val0 ⟨.loadings, t, v3 i, latName m i⟩ ≠ 0 := by
    intro t
    by_cases ht : t < T
    · choose v1 v2 v3 hv using fun i : Fin (nLat m) => hown t (latName m i) ((hperiod t).mpr ht) (hlat i)
      exact ⟨v1, v2, v3, fun _ => hv⟩
    · exact ⟨fun _ => "", fun _ => "", fun _ => "", fun h => absurd h ht⟩
  choose v1 v2 v3 hch using hch
  have hsingle : ∀ (u : Loc → ℝ) t v (i : Fin (nLat m)), MeasuresOnly m t v (latName m i) → ((systemOf m u).eq t).h v = Pi.single i (u ⟨.loadings, t, v, latName m i⟩) := by
    intro u t v i hmo
    funext j
    simp only [systemOf]
    by_cases hj : j = i
    · subst hj
      rw [if_pos ((hmo _).mpr rfl), Pi.single_eq_same]
    · rw [if_neg (fun hM => hj (latName_injective hg ((hmo _).mp hM))), Pi.single_eq_of_ne hj]
  have hupd : ∀ t v (i : Fin (nLat m)), MeasuresOnly m t v (latName m i) → IsUpdate m t v := fun t v i hmo => Or.inl ⟨_, (hmo _).mpr rfl⟩
  have hl1 : ∀ t < T, ∀ i, val ⟨.loadings, t, v1 t i, latName m i⟩ = val0 ⟨.loadings, t, v1 t i, latName m i⟩ ∧ val0 ⟨.loadings, t, v1 t i, latName m i⟩ ≠ 0 := fun t ht i => by
    obtain ⟨_, _, _, _, _, _, ⟨x, hx, hload⟩, _⟩ := hch t ht i
    rw [hnorm0.loadings _ _ _ _ hload, hnorm.loadings _ _ _ _ hload]
    exact ⟨rfl, hx⟩
  have hded : ∀ u : Loc → ℝ, (∀ t < T, ∀ i, u ⟨.loadings, t, v1 t i, latName m i⟩ = val0 ⟨.loadings, t, v1 t i, latName m i⟩) → ∀ t < T, Dedicated ((systemOf m u).eq t) (IsUpdate m t) (v1 t) (v2 t) (v3 t)
      (fun i => val0 ⟨.loadings, t, v1 t i, latName m i⟩) (fun i => u ⟨.loadings, t, v2 t i, latName m i⟩) (fun i => u ⟨.loadings, t, v3 t i, latName m i⟩) := fun u hu t ht =>
    { measured := fun i => by
        obtain ⟨_, _, _, h4, h5, h6, _⟩ := hch t ht i
        exact ⟨hupd _ _ i h4, hupd _ _ i h5, hupd _ _ i h6⟩
      distinct := fun i => ⟨(hch t ht i).1, (hch t ht i).2.1, (hch t ht i).2.2.1⟩
      h1 := fun i => by rw [hsingle u t _ i (hch t ht i).2.2.2.1, hu t ht i]
      h2 := fun i => hsingle u t _ i (hch t ht i).2.2.2.2.1
      h3 := fun i => hsingle u t _ i (hch t ht i).2.2.2.2.2.1
      norm := fun i => (hl1 t ht i).2 }
  have hidxOf : ∀ i : Fin (nLat m), (latents m).idxOf (latName m i) = i.val := fun i => by
    have hlen : i.val < (latents m).length := by rw [latents_ofFn, List.length_ofFn]; exact i.isLt
    have hi : (latents m)[i.val] = latName m i := Option.some.inj ((List.getElem?_eq_getElem hlen).symm.trans (latName_get i))
    rw [← hi]
    exact List.Nodup.idxOf_getElem hg.keys.factors i.val hlen
  have htri : ∀ u : Loc → ℝ, ∀ i j, i < j → (systemOf m u).L i j = 0 := fun u i j hij => by
    show cholEntry _ _ _ _ _ = 0
    unfold cholEntry
    rw [hidxOf, hidxOf, if_neg (by have : i.val < j.val := hij; omega)]
  have hlow : ∀ u : Loc → ℝ, ∀ i j, j ≤ i → (systemOf m u).L i j = u ⟨.initialCholcovs, 0, Spec.mixtureName 0, latName m i ++ "-" ++ latName m j⟩ := fun u i j hij => by
    show cholEntry _ _ _ _ _ = _
    unfold cholEntry
    rw [hidxOf, hidxOf, if_pos (show j.val ≤ i.val from hij)]
  obtain ⟨heqs, hmu, hL, hnext⟩ := system_identified (T := T) (hded val0 (fun _ _ _ => rfl)) (hded val (fun t ht i => (hl1 t ht i).1)) (fun t ht i => (hch t ht i).2.2.2.2.2.2.2.2.1) (fun t ht i => (hch t ht i).2.2.2.2.2.2.2.2.2)
    (fun t ht i => by
      obtain ⟨_, _, _, _, _, _, _, ⟨g, x, hx⟩, _⟩ := hch t ht i
      show val0 _ = val _
      rw [hnorm0.intercepts _ _ _ _ hx, hnorm.intercepts _ _ _ _ hx]) (htri val0) (htri val)
    (fun i => by rw [hlow _ i i le_rfl]; exact lt_of_le_of_ne (hnorm0.diagonal _ (hlat i)) (Ne.symm (hcol.start _ (hlat i)))) (fun i => by rw [hlow _ i i le_rfl]; exact hnorm.diagonal _ (hlat i))
    (fun t ht i => by
      rcases hcol.shocks t _ ((hperiod (t + 1)).mpr ht) (hlat i) with hc | hq
      · right
        simp only [systemOf]
        rw [if_pos hc]
      · exact Or.inl hq) (by omega) hmom
  have hmix : ∀ n, HasNMixtures m n → n = 1 := by
    rintro n ⟨o, ho, h1⟩
    obtain ⟨o', ho', h2⟩ := hm.mixture
    rw [ho] at ho'
    cases ho'
    rcases h1 with h1 | ⟨h1, h1'⟩ <;> rcases h2 with h2 | ⟨h2, _⟩ <;> simp_all
  have hsq : ∀ a b : ℝ, 0 ≤ a → 0 ≤ b → a ^ 2 = b ^ 2 → a = b := fun a b ha hb h => (pow_left_inj₀ ha hb two_ne_zero).mp h
  have hperT : ∀ t v, IsUpdate m t v → t < T := fun t v hv => (hperiod t).mp (isUpdate_period hv)
  cases hl with
  | control hu hc =>
    rw [hcon] at hc
    simp only [List.not_mem_nil, or_false] at hc
    subst hc
    exact (heqs _ (hperT _ _ hu) _ hu).2.2
  | loading hf hM =>
    have hM : Measures m _ _ _ := hM.resolve_right (fun ⟨_, o, ⟨a, ha, _⟩, _⟩ => by rw [hna] at ha; cases ha)
    have hu : IsUpdate m _ _ := Or.inl ⟨_, hM⟩
    obtain ⟨i, rfl⟩ := hidx _ hf
    have := congrFun (heqs _ (hperT _ _ hu) _ hu).1 i
    simp only [systemOf] at this
    rwa [if_pos hM, if_pos hM] at this
  | measSd hu => exact hsq _ _ (hnorm0.measSds _ _ hu) (hnorm.measSds _ _ hu) (heqs _ (hperT _ _ hu) _ hu).2.1
  | shockSd hp hf =>
    obtain ⟨i, rfl⟩ := hidx _ hf
    exact hsq _ _ (hnorm0.shockSds _ _ hp (hlat i)) (hnorm.shockSds _ _ hp (hlat i)) ((hnext _ ((hperiod _).mp hp)).2.2 i)
  | initialState hn hk hf =>
    obtain rfl := hmix _ hn
    obtain rfl : _ = 0 := Nat.lt_one_iff.mp hk
    obtain ⟨i, rfl⟩ := hidx _ hf
    exact congrFun hmu i
  | mixtureWeight hn hk =>
    obtain rfl := hmix _ hn
    obtain rfl : _ = 0 := Nat.lt_one_iff.mp hk
    have h0 := hv0.sum
    have h1 := hv.sum
    simp only [Finset.univ_unique, Fin.default_eq_zero, Finset.sum_singleton] at h0 h1
    exact h0.trans h1.symm
  | @cholcov _ _ i j _ _ hn hk hij hf hg' =>
    obtain rfl := hmix _ hn
    obtain rfl : _ = 0 := Nat.lt_one_iff.mp hk
    obtain ⟨hi, rfl⟩ := List.getElem?_eq_some_iff.mp hf
    obtain ⟨hj, rfl⟩ := List.getElem?_eq_some_iff.mp hg'
    have hi' : i < nLat m := by simpa using hi
    have hj' : j < nLat m := by simpa using hj
    have hin := latName_get (m := m) ⟨_, hi'⟩
    have hjn := latName_get (m := m) ⟨_, hj'⟩
    rw [List.getElem?_eq_getElem hi] at hin
    rw [List.getElem?_eq_getElem hj] at hjn
    rw [Option.some.inj hin, Option.some.inj hjn]
    have := congrFun (congrFun hL ⟨i, hi'⟩) ⟨j, hj'⟩
    rwa [hlow _ ⟨i, hi'⟩ ⟨j, hj'⟩ hij, hlow _ ⟨i, hi'⟩ ⟨j, hj'⟩ hij] at this
  | @transition t f spec name hp hs hpar =>
    obtain ⟨i, rfl⟩ := hidx _ ⟨_, hs⟩
    obtain ⟨hA, hc, _⟩ := hnext _ ((hperiod _).mp hp)
    rcases hm.transitions _ _ hs with htr | htr
    · have hnc : ¬HasTransition m (latName m i) "constant" := by
        rintro ⟨spec', hs', htr'⟩
        obtain rfl := Except.ok.inj ((Dict.getItem_of_mem hg.keys.factors hs).symm.trans (Dict.getItem_of_mem hg.keys.factors hs'))
        rw [htr] at htr'
        simp at htr'
      rw [htr] at hpar
      have hpar : name ∈ allFactors m ∨ name = "constant" := by simpa [HasTransitionParam] using hpar
      rcases hpar with hpar | rfl
      · rw [allFactors, hobs, List.append_nil] at hpar
        obtain ⟨⟨f, spec'⟩, hf, rfl⟩ := List.mem_map.mp hpar
        obtain ⟨j, hj⟩ := hidx f ⟨_, hf⟩
        have := congrFun (congrFun hA i) j
        simp only [systemOf] at this
        rw [if_neg hnc, if_neg hnc, hj] at this
        exact this
      · have := congrFun hc i
        simp only [systemOf] at this
        rwa [if_neg hnc, if_neg hnc] at this
    · rw [htr] at hpar
      simp [HasTransitionParam] at hpar

/-- Different admissible values of the parameters have different likelihood functions. -/
theorem C119_likelihoods_differ {qr : QR} (hqr : ValidQR qr) {pm : Processed ℝ} (hpm : processModel m = .ok pm) (hg : GoodNames m) (hm : LinearModel m 1) (hna : m.anchoring = none) (hcon : m.controls.getD [] = [])
    (hobs : m.observedFactors.getD [] = []) (hq : ∀ f, IsLatent m f → querySafe f) (hc : NoClipping m) (hkappa : ∀ o x, m.estimationOptions = some o → o.sigmaPointsScale = some x → 0 ≤ x) (hsep : SeparateColumns m)
    {val0 val : Loc → ℝ} (hv0 : ProperValues m 1 val0) (hv : ProperValues m 1 val) (hown : HasOwnMeasurements m val0) (hnorm0 : Normalized m val0) (hnorm : Normalized m val) (hcol : NotCollinear m val0)
    (hne : ∃ l, IsParam m l ∧ val l ≠ val0 l) (custom : String → CustomFn) (nan : ℝ) :
    ∃ (df : LongData ℝ) (inputs : MaximizationInputs) (params0 params : List (Loc × ℝ)) (out0 out : LoglikeOutput), (∀ l x, (l, x) ∈ params0 → x = val0 l) ∧ (∀ l x, (l, x) ∈ params → x = val l) ∧
      getMaximizationInputs m df = .ok inputs ∧ inputs.loglike qr custom nan m params0 = .ok out0 ∧ inputs.loglike qr custom nan m params = .ok out ∧ out.value ≠ out0.value := by
  obtain ⟨Ω, _, P, E, Z, hP, hZ⟩ := exists_randomNoise (k := 1) (val := val0) (fun e he => (hv0.positive e he).le) hv0.sum
  obtain ⟨Ω', _, P', E', Z', hP', hZ'⟩ := exists_randomNoise (k := 1) (val := val) (fun e he => (hv.positive e he).le) hv.sum
  have hiff := C106_same_likelihood_iff hqr hqr hpm hpm hm hm hna hna hg hg hq hq hc hc hkappa hkappa ⟨fun _ => Iff.rfl, fun _ _ => Iff.rfl, fun _ _ => Iff.rfl, fun _ => Iff.rfl, fun _ => Iff.rfl⟩ hsep hv0 hv hZ hZ' custom custom nan nan
  have hnot : ¬SameDistribution P E Z P' E' Z' m val0 m val := fun h =>
    C119_identified hg hm hna hcon hobs hv0 hv hown hnorm0 hnorm hcol hne Ω Ω' P P' E E' Z Z' hZ hZ' _ (updateList_enumerates hpm) (h _ (updateList_enumerates hpm) noCovariates (fun _ _ _ _ => rfl))
  rw [hiff] at hnot
  push Not at hnot
  obtain ⟨df, ids, pers, inputs, inputs', params, params', out, out', _, _, _, _, _, _, _, _, hval, hval', hin, hin', hout, hout', hne⟩ := hnot
  rw [hin] at hin'
  cases hin'
  exact ⟨df, inputs, params, params', out, out', hval, hval', hin, hout, hout', hne⟩

/-- All parameters of an identified model are estimated consistently: simulate data of growing size with the true values `val0` of the parameters. Almost surely the likelihood functions of the measurements have maxima among the admissible values
`Θ`, and the maximum likelihood estimates of all parameters converge to the true values. -/
theorem C119_consistent {qr : QR} (hqr : ValidQR qr) {root : NormalRoot} (hroot : ValidRoot root) {pm : Processed ℝ} (hpm : processModel m = .ok pm) (hm : LinearModel m 1)
    (hsm : SimulationModel m 1) (hna : m.anchoring = none) (hcon : m.controls.getD [] = []) (hobs : m.observedFactors.getD [] = []) (hno : ∀ t v, IsUpdate m t v → v ≠ "constant")
    (hkappa : ∀ o x, m.estimationOptions = some o → o.sigmaPointsScale = some x → 0 ≤ x) (hclip : NoClipping m) (custom : String → CustomFn) (nan : ℝ)
    {Θ : Set (Loc → ℝ)} (hΘ : IsCompact Θ) (hv : ∀ val ∈ Θ, ProperValues m 1 val) (hnorm : ∀ val ∈ Θ, Normalized m val) {val0 : Loc → ℝ} (h0 : val0 ∈ Θ) (hown : HasOwnMeasurements m val0) (hcol : NotCollinear m val0)
    (params0 : List (Loc × ℝ)) (hparams0 : ParamsWith m params0 val0)
    {Ω : Type} [MeasurableSpace Ω] (P : Measure Ω) [IsProbabilityMeasure P] (E : Nat → Nat → Ω → Fin 1) (Z : Nat → Nat → Draw → Ω → ℝ) (hZ : ∀ n, RandomDatasetDraws P val0 (E n) (Z n)) :
    ∀ᵐ ω ∂P, ∃ data : ℕ → SimulatedDataset, (∀ n ≥ 2, simulateDataset root custom nan m params0 (some n) none [] (drawsWith (fun i => E n i ω) (fun i j => Z n i j ω)) = .ok (data n)) ∧
      (∀ n ≥ 2, ∃ val, Maximizes (loglikeValue qr custom nan m (asDataset (data n).measurements)) m Θ val) ∧
      ∀ est : ℕ → Loc → ℝ, (∀ n ≥ 2, Maximizes (loglikeValue qr custom nan m (asDataset (data n).measurements)) m Θ (est n)) → ∀ l, IsParam m l → Filter.Tendsto (fun n => est n l) Filter.atTop (𝓝 (val0 l)) :=
  C110_consistent hqr hroot hpm hm hsm hna hcon hobs hno hkappa hclip custom nan hΘ hv h0
    (fun val hval hne => C119_identified hsm.names hm hna hcon hobs (hv val0 h0) (hv val hval) hown (hnorm val0 h0) (hnorm val hval) hcol hne) params0 hparams0 P E Z hZ

end Skill
