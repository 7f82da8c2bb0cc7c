import Verif.Spec.Rescaling
import Verif.Lemmas.SameLaw
/-
A change of scale and location of the factors does not change the measurements.
-/
namespace Skill
open Spec
variable {m : ModelDict ℝ} {c d : ℕ → String → ℝ} {val val' : Loc → ℝ}

theorem list_sum_mul (l : List String) (x : ℝ) (F : String → ℝ) : (l.map (fun f => x * F f)).sum = x * (l.map F).sum := by
  induction l with
  | nil => simp
  | cons a l ih => simp only [List.map_cons, List.sum_cons, ih, mul_add]

theorem list_sum_add (l : List String) (F G : String → ℝ) : (l.map (fun f => F f + G f)).sum = (l.map F).sum + (l.map G).sum := by
  induction l with
  | nil => simp
  | cons a l ih =>
    simp only [List.map_cons, List.sum_cons, ih]
    ring

theorem list_sum_congr {l : List String} {F G : String → ℝ} (h : ∀ f ∈ l, F f = G f) : (l.map F).sum = (l.map G).sum := by
  rw [List.map_congr_left h]

theorem rescaled_start (h : Rescales m c d val val') (e : ℕ) (z : Noise → ℝ) {f : String} (hf : IsLatent m f) : startState m val' e z f = c 0 f * startState m val e z f + d 0 f := by
  unfold startState
  rw [h.means e f hf, mul_add, ← list_sum_mul]
  have : ((latents m).take ((latents m).idxOf f + 1)).map (fun g => val' ⟨.initialCholcovs, 0, Spec.mixtureName e, f ++ "-" ++ g⟩ * z (.start g)) =
      ((latents m).take ((latents m).idxOf f + 1)).map (fun g => c 0 f * (val ⟨.initialCholcovs, 0, Spec.mixtureName e, f ++ "-" ++ g⟩ * z (.start g))) := by
    refine List.map_congr_left (fun g hg => ?_)
    rw [h.cholcovs e f g hf ((mem_latents_iff m g).mp (List.mem_of_mem_take hg)), mul_assoc]
  rw [this]
  ring

theorem unitScale_ne (hc : CanRescale m c d) (t : ℕ) (f : String) : unitScale m c t f ≠ 0 := by
  unfold unitScale
  split_ifs with h
  · exact hc.nonzero t f h.1
  · exact one_ne_zero

theorem rescaled_anchored (h : Rescales m c d val val') (hc : CanRescale m c d) (hg : GoodNames m) (hclean : CleanAnchoring m) (t : ℕ) {f : String} (hl : IsLatent m f) (x : ℝ) :
    anchoredValue m val' t f (c t f * x + d t f) = unitScale m c t f * anchoredValue m val t f x + unitShift m d t f := by
  classical
  have h0 := hc.nonzero t f hl
  unfold anchoredValue
  cases ho : Spec.outcome m f with
  | none =>
    have : ¬∃ o, AnchoredIn m f o := by
      rintro ⟨o, h⟩
      rw [(outcome_iff hg f o).mpr h] at ho
      cases ho
    unfold anchorScale anchorConstant unitScale unitShift
    simp only [ho, if_pos (And.intro hl this)]
    ring
  | some o =>
    have ha := (outcome_iff hg f o).mp ho
    have hL : ∀ g, Loads m t (o ++ "_" ++ f) g ↔ g = f := by
      intro g
      constructor
      · rintro (h | h)
        · exact absurd h (hclean.notMeasured _ f t g ⟨o, ha, rfl⟩)
        · exact hclean.distinct _ g f h ⟨o, ha, rfl⟩
      · rintro rfl
        exact Or.inr ⟨o, ha, rfl⟩
    have hsum : ((latents m).map (fun g => if Loads m t (o ++ "_" ++ f) g then val ⟨.loadings, t, o ++ "_" ++ f, g⟩ / c t g * d t g else 0)).sum = val ⟨.loadings, t, o ++ "_" ++ f, f⟩ / c t f * d t f := by
      simp only [hL]
      rw [← List.sum_toFinset (l := latents m) _ hg.keys.factors]
      rw [Finset.sum_ite_eq' , if_pos]
      exact List.mem_toFinset.mpr ((mem_latents_iff m f).mpr hl)
    unfold anchorScale anchorConstant unitScale unitShift
    rw [if_neg (fun h => h.2 ⟨o, ha⟩), if_neg (fun h => h.2 ⟨o, ha⟩)]
    simp only [ho]
    rw [h.loadings t _ f hl (Or.inr ⟨o, ha, rfl⟩), h.intercepts, hsum]
    by_cases hi : AnchorFlag m AnchoringSpec.ignoreConstant
    · rw [if_pos hi, if_pos hi, hc.anchored hi t f o ha]
      field_simp
      ring
    · rw [if_neg hi, if_neg hi]
      field_simp
      ring

theorem rescaled_scale (h : Rescales m c d val val') (hc : CanRescale m c d) (hg : GoodNames m) {t : ℕ} {f : String} (hl : IsLatent m f) (h0 : anchorScale m val t f ≠ 0) : anchorScale m val' t f ≠ 0 := by
  unfold anchorScale at h0 ⊢
  cases ho : Spec.outcome m f with
  | none => exact one_ne_zero
  | some o =>
    rw [ho] at h0
    dsimp only at h0 ⊢
    rw [h.loadings t _ f hl (Or.inr ⟨o, (outcome_iff hg f o).mp ho, rfl⟩)]
    exact div_ne_zero h0 (hc.nonzero t f hl)

theorem rescaled_nextAnchored (h : Rescales m c d val val') (hc : CanRescale m c d) (t : ℕ) {x x' : String → ℝ} (hx : ∀ g, x' g = unitScale m c t g * x g + unitShift m d t g) {f : String} (hl : IsLatent m f) :
    nextAnchored m val' t x' f = unitScale m c (t + 1) f * nextAnchored m val t x f + unitShift m d (t + 1) f := by
  classical
  unfold nextAnchored
  split_ifs with hcon
  · rw [hx]
    unfold unitScale unitShift
    by_cases ha : ∃ o, AnchoredIn m f o
    · simp only [ha, not_true_eq_false, and_false, if_false]
    · obtain ⟨h1, h2⟩ := hc.constant t f hcon ha
      rw [h1, h2]
  · unfold linearValue linearTerms
    dsimp only
    rw [h.constants t f hl]
    have : ((allFactors m).map (fun g => val' ⟨.transition, t, f, g⟩ * x' g)).sum = unitScale m c (t + 1) f * ((allFactors m).map (fun g => val ⟨.transition, t, f, g⟩ * x g)).sum +
        ((allFactors m).map (fun g => unitScale m c (t + 1) f * val ⟨.transition, t, f, g⟩ / unitScale m c t g * unitShift m d t g)).sum := by
      rw [← list_sum_mul, ← list_sum_add]
      refine list_sum_congr (fun g hg => ?_)
      rw [h.coefficients t f g hl hg, hx]
      have := unitScale_ne hc t g
      field_simp
    rw [this]
    ring

theorem rescaled_next (h : Rescales m c d val val') (hc : CanRescale m c d) (hg : GoodNames m) (hclean : CleanAnchoring m) (t : ℕ) (cov : Covariates) {s s' : String → ℝ} (hs : ∀ g, IsLatent m g → s' g = c t g * s g + d t g) {f : String}
    (hl : IsLatent m f) (h0 : anchorScale m val (t + 1) f ≠ 0) : nextState m val' cov t s' f = c (t + 1) f * nextState m val cov t s f + d (t + 1) f := by
  have h0' := rescaled_scale h hc hg hl h0
  have hN := rescaled_nextAnchored h hc t (x := fun g => if g ∈ latents m then anchoredValue m val t g (s g) else cov.factor t g) (x' := fun g => if g ∈ latents m then anchoredValue m val' t g (s' g) else cov.factor t g) (by
    intro g
    split_ifs with hgl
    · have hgl' := (mem_latents_iff m g).mp hgl
      rw [hs g hgl', rescaled_anchored h hc hg hclean t hgl']
    · have hgl' : ¬IsLatent m g := fun h => hgl ((mem_latents_iff m g).mpr h)
      unfold unitScale unitShift
      rw [if_neg (fun h => hgl' h.1), if_neg (fun h => hgl' h.1)]
      ring) hl
  have hA := rescaled_anchored h hc hg hclean (t + 1) hl (nextState m val cov t s f)
  have hn : anchoredValue m val (t + 1) f (nextState m val cov t s f) = nextAnchored m val t (fun g => if g ∈ latents m then anchoredValue m val t g (s g) else cov.factor t g) f := by
    unfold anchoredValue nextState
    field_simp
    unfold anchoredValue
    ring
  rw [hn, ← hN] at hA
  conv_lhs => unfold nextState
  rw [← hA, div_eq_iff h0']
  unfold anchoredValue
  ring

theorem rescaled_states (h : Rescales m c d val val') (hc : CanRescale m c d) (hg : GoodNames m) (hclean : CleanAnchoring m) (hscale : ∀ t f, IsPeriod m t → anchorScale m val t f ≠ 0) (cov : Covariates) (e : ℕ) (z : Noise → ℝ) :
    ∀ t, IsPeriod m t → ∀ f, IsLatent m f → latentStates m val' cov e z t f = c t f * latentStates m val cov e z t f + d t f
  | 0, _, f, hf => rescaled_start h e z hf
  | t + 1, ht, f, hf => by
    have ht' : IsPeriod m t := by
      obtain ⟨n, hn, hlt⟩ := ht
      exact ⟨n, hn, by omega⟩
    show nextState m val' cov t (latentStates m val' cov e z t) f + val' ⟨.shockSds, t, f, "-"⟩ * z (.shock t f) = c (t + 1) f * (nextState m val cov t (latentStates m val cov e z t) f + val ⟨.shockSds, t, f, "-"⟩ * z (.shock t f)) + d (t + 1) f
    rw [rescaled_next h hc hg hclean t cov (fun g hgl => rescaled_states h hc hg hclean hscale cov e z t ht' g hgl) hf (hscale _ f ht), h.shockSds t f hf]
    ring

theorem rescaled_terms (h : Rescales m c d val val') (hc : CanRescale m c d) (hg : GoodNames m) (cov : Covariates) {t : ℕ} {s s' : String → ℝ} (hs : ∀ f, IsLatent m f → s' f = c t f * s f + d t f) (v : String)
    (hone : cov.control t "constant" = 1) [∀ f, Decidable (Measures m t v f ∨ Anchors m v f)] :
    (("constant" :: m.controls.getD []).map (fun c => val' ⟨.controls, t, v, c⟩ * cov.control t c)).sum + ((latents m).map (fun f => if Measures m t v f ∨ Anchors m v f then val' ⟨.loadings, t, v, f⟩ * s' f else 0)).sum =
    (("constant" :: m.controls.getD []).map (fun c => val ⟨.controls, t, v, c⟩ * cov.control t c)).sum + ((latents m).map (fun f => if Measures m t v f ∨ Anchors m v f then val ⟨.loadings, t, v, f⟩ * s f else 0)).sum := by
  classical
  have hctrl : ((m.controls.getD []).map (fun x => val' ⟨.controls, t, v, x⟩ * cov.control t x)).sum = ((m.controls.getD []).map (fun x => val ⟨.controls, t, v, x⟩ * cov.control t x)).sum := by
    refine list_sum_congr (fun x hx => ?_)
    rw [h.controls t v x (fun hx' => (List.nodup_cons.mp hg.controls).1 (hx' ▸ hx))]
  have hload : ((latents m).map (fun f => if Measures m t v f ∨ Anchors m v f then val' ⟨.loadings, t, v, f⟩ * s' f else 0)).sum =
      ((latents m).map (fun f => if Measures m t v f ∨ Anchors m v f then val ⟨.loadings, t, v, f⟩ * s f else 0)).sum +
        ((latents m).map (fun f => if Loads m t v f then val ⟨.loadings, t, v, f⟩ / c t f * d t f else 0)).sum := by
    rw [← list_sum_add]
    refine list_sum_congr (fun f hf => ?_)
    have hl := (mem_latents_iff m f).mp hf
    by_cases hL : Measures m t v f ∨ Anchors m v f
    · rw [if_pos hL, if_pos hL, if_pos (show Loads m t v f from hL), h.loadings t v f hl hL, hs f hl]
      have := hc.nonzero t f hl
      field_simp
    · rw [if_neg hL, if_neg hL, if_neg (show ¬Loads m t v f from hL), add_zero]
  simp only [List.map_cons, List.sum_cons]
  rw [hctrl, hload, h.intercepts, hone]
  ring

theorem rescaled_measurement (h : Rescales m c d val val') (hc : CanRescale m c d) (hg : GoodNames m) (hclean : CleanAnchoring m) (hscale : ∀ t f, IsPeriod m t → anchorScale m val t f ≠ 0) (cov : Covariates) (e : ℕ) (z : Noise → ℝ)
    {t : ℕ} (ht : IsPeriod m t) (v : String) (hone : cov.control t "constant" = 1) : measurementValue m val' cov e z t v = measurementValue m val cov e z t v := by
  classical
  unfold measurementValue
  rw [h.measSds, rescaled_terms h hc hg cov (fun f hf => rescaled_states h hc hg hclean hscale cov e z t ht f hf) v hone]

theorem Spec.Rescales.proper {k : ℕ} (h : Rescales m c d val val') (hc : CanRescale m c d) (hg : GoodNames m) (hclean : CleanAnchoring m) (hv : ProperValues m k val) : ProperValues m k val' where
  positive e he := by
    rw [h.weights]
    exact hv.positive e he
  sum := by
    rw [← hv.sum]
    exact Finset.sum_congr rfl (fun e _ => h.weights e)
  sds t v ht := by
    rw [h.measSds]
    exact hv.sds t v ht
  scales t f ht := by
    by_cases hl : IsLatent m f
    · exact rescaled_scale h hc hg hl (hv.scales t f ht)
    · unfold anchorScale
      cases ho : Spec.outcome m f with
      | none => exact one_ne_zero
      | some o => exact absurd (hclean.latent f o ((outcome_iff hg f o).mp ho)) hl

end Skill
