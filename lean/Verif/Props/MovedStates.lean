import Verif.Props.MovedLocations
import Verif.Props.FilteredStates
/- C147: anchored filtered states do not depend on the locations of latent factors. -/
namespace Skill
open Matrix Spec

/-- An anchoring equation has one factor. -/
theorem anchor_sum {m : ModelDict ℝ} {τ : Nat → String → ℝ} {val : Loc → ℝ} [∀ t v f, Decidable (Loads m t v f)] (hg : GoodNames m) (hc : CleanAnchoring m) {t : ℕ} {f o : String} (ha : AnchoredIn m f o) :
    ((Spec.latents m).map (fun g => if Loads m t (o ++ "_" ++ f) g then val ⟨.loadings, t, o ++ "_" ++ f, g⟩ * τ t g else 0)).sum = val ⟨.loadings, t, o ++ "_" ++ f, f⟩ * τ t f := by
  have hA : Anchors m (o ++ "_" ++ f) f := ⟨o, ha, rfl⟩
  have hf : f ∈ Spec.latents m := (mem_latents_iff m f).mpr (hc.latent f o ha)
  have hnd : (Spec.latents m).Nodup := hg.keys.factors
  have : ∀ g ∈ Spec.latents m, (if Loads m t (o ++ "_" ++ f) g then val ⟨.loadings, t, o ++ "_" ++ f, g⟩ * τ t g else 0) = if g = f then val ⟨.loadings, t, o ++ "_" ++ f, f⟩ * τ t f else 0 := by
    intro g _
    by_cases h : g = f
    · subst h
      rw [if_pos (show Loads m t (o ++ "_" ++ g) g from Or.inr hA), if_pos rfl]
    · rw [if_neg h, if_neg]
      rintro (hL | hL)
      · exact hc.notMeasured _ _ _ _ hA hL
      · exact h (hc.distinct _ _ _ hL hA)
  rw [List.map_congr_left this]
  generalize val ⟨.loadings, t, o ++ "_" ++ f, f⟩ * τ t f = x
  clear this
  generalize Spec.latents m = l at hf hnd
  induction l with
  | nil => cases hf
  | cons a as ih =>
    rw [List.map_cons, List.sum_cons]
    rcases List.mem_cons.mp hf with rfl | hf'
    · rw [if_pos rfl, List.sum_eq_zero, add_zero]
      intro y hy
      obtain ⟨b, hb, rfl⟩ := List.mem_map.mp hy
      exact if_neg (fun h : b = f => (List.nodup_cons.mp hnd).1 (h ▸ hb))
    · rw [if_neg (fun h : a = f => (List.nodup_cons.mp hnd).1 (h ▸ hf')), zero_add]
      exact ih hf' (List.nodup_cons.mp hnd).2

/-- The intercept of an anchoring equation after a change of locations. -/
theorem moved_anchor {m : ModelDict ℝ} {custom : String → CustomFn} {τ : Nat → String → ℝ} {val val' : Loc → ℝ} (hg : GoodNames m) (hc : CleanAnchoring m) (hmv : MovedLocations custom m τ val val') {t : ℕ} (ht : IsPeriod m t) {f o : String} (ha : AnchoredIn m f o) :
    val' ⟨.controls, t, o ++ "_" ++ f, "constant"⟩ = val ⟨.controls, t, o ++ "_" ++ f, "constant"⟩ - val ⟨.loadings, t, o ++ "_" ++ f, f⟩ * τ t f := by
  classical
  rw [hmv.intercepts t _ (Or.inr ⟨ht, f, o, ha, rfl⟩), anchor_sum hg hc ha]

/-- **C147**: move the locations of latent factors, as in C146. In the DataFrames of get_filtered_states the latent factors are moved in the same way, but the factors that are anchored (with the constants of the anchoring equations)
do not change at all: anchored states do not depend on the locations that the user chooses by normalizations. -/
theorem C147_filtered_states (qr : QR) {m : ModelDict ℝ} {pm : Processed ℝ} (hpm : processModel m = .ok pm) (hg : GoodNames m) (hc : CleanAnchoring m) (ho : SameOrder m) (hclash : NoNameClash m)
    (hq : ∀ f, IsLatent m f → querySafe f) (hnames : ∀ f, IsLatent m f → f ≠ "period" ∧ f ≠ "id") (hper : IsPeriod m 1) (hmeas : ∀ t, IsPeriod m t → ∃ v f, Measures m t v f ∧ ¬ ∃ g, Anchors m v g)
    {k : ℕ} (hmix : HasNMixtures m k) (hk : k = 1 ∨ k ≠ 0 ∧ m.observedFactors.getD [] = []) (hkappa : ∀ o x, m.estimationOptions = some o → o.sigmaPointsScale = some x → 0 ≤ x)
    {df : LongData ℝ} (hi : IndexOk df) (hnu : NoUnusedPeriods df) {ids pers : List Int} (hids : IdsOf df ids) (hpers : PeriodsOf df pers) (hdata : DataOk m df ids pers)
    (custom : String → CustomFn) (nan : ℝ) {params params' : List (Loc × ℝ)} {val val' : Loc → ℝ} (hn : (params.map Prod.fst).Nodup) (hlab : ∀ l, IsParam m l → l ∈ params.map Prod.fst) (hval : ∀ l x, (l, x) ∈ params → x = val l)
    (hn' : (params'.map Prod.fst).Nodup) (hlab' : ∀ l, IsParam m l → l ∈ params'.map Prod.fst) (hval' : ∀ l x, (l, x) ∈ params' → x = val' l) {τ : Nat → String → ℝ} (hmv : MovedLocations custom m τ val val')
    (hu : ∀ t, IsPeriod m (t + 1) → ∀ fs ∈ m.factors, TransFn.Usable (allFactors m) (fun name => val ⟨.transition, t, fs.1, name⟩) (transFnOf (custom fs.1) fs.2.transition))
    (hu' : ∀ t, IsPeriod m (t + 1) → ∀ fs ∈ m.factors, TransFn.Usable (allFactors m) (fun name => val' ⟨.transition, t, fs.1, name⟩) (transFnOf (custom fs.1) fs.2.transition))
    (hpos : ∀ e : Fin k, 0 < val ⟨.mixtureWeights, 0, Spec.mixtureName e, "-"⟩) (hsum : ∑ e : Fin k, val ⟨.mixtureWeights, 0, Spec.mixtureName e, "-"⟩ = 1) :
    ∃ out out', getFilteredStates qr custom nan m df params = .ok out ∧ getFilteredStates qr custom nan m df params' = .ok out' ∧
      ∀ t i, IsPeriod m t → i < ids.length → ∃ x x' y y', out.unanchored.states.rows[t * ids.length + i]? = some (t, x) ∧ out'.unanchored.states.rows[t * ids.length + i]? = some (t, x') ∧
        out.anchored.states.rows[t * ids.length + i]? = some (t, y) ∧ out'.anchored.states.rows[t * ids.length + i]? = some (t, y') ∧
        (∀ f, IsLatent m f → x' f = x f + τ t f) ∧
        (∀ f o, AnchoredIn m f o → ¬AnchorFlag m AnchoringSpec.ignoreConstant → y' f = y f) ∧
        (∀ f o, AnchoredIn m f o → AnchorFlag m AnchoringSpec.ignoreConstant → y' f = y f + τ t f * val ⟨.loadings, t, o ++ "_" ++ f, f⟩) ∧
        (∀ f, IsLatent m f → ¬(∃ o, AnchoredIn m f o) → y' f = y f + τ t f) := by
  obtain ⟨out, hout, _, _, _, hrows, _⟩ := C86_get_filtered_states qr hpm hg hc ho hclash hq hnames hper hmeas hmix hk hi hnu hids hpers hdata custom nan hn hlab hval (hu 0 hper)
  obtain ⟨out', hout', _, _, _, hrows', _⟩ := C86_get_filtered_states qr hpm hg hc ho hclash hq hnames hper hmeas hmix hk hi hnu hids hpers hdata custom nan hn' hlab' hval' (hu' 0 hper)
  refine ⟨out, out', hout, hout', fun t i ht hil => ?_⟩
  obtain ⟨x, y, hx, hy, _, _, _, _, u1, u2, u3⟩ := hrows t i ht hil
  obtain ⟨x', y', hx', hy', _, _, _, _, u1', u2', u3'⟩ := hrows' t i ht hil
  have hmoved : ∀ f, IsLatent m f → x' f = x f + τ t f := by
    unfold getFilteredStates at hout hout'
    simp only [py_bind_ok, py_pure_ok] at hout hout'
    obtain ⟨inputs, hin, par, hpar, d, hdeb, pm1, hpm1, anc, hanc, rfl⟩ := hout
    obtain ⟨inputs', hin', par', hpar', d', hdeb', pm2, hpm2, anc', hanc', rfl⟩ := hout'
    obtain rfl := Except.ok.inj (hin.symm.trans hin')
    have hpr : inputs.template.map Prod.fst = pm.paramsIndex ∧ inputs.model = pm := by
      have hin := hin
      unfold getMaximizationInputs at hin
      simp only [py_bind_ok, py_pure_ok] at hin
      obtain ⟨pm1, hpm1, _, _, _, _, _, _, rfl⟩ := hin
      obtain rfl := Except.ok.inj (hpm.symm.trans hpm1)
      exact ⟨by simp [Processed.paramsTemplate, addBounds, Function.comp_def], rfl⟩
    rw [hpr.1] at hpar hpar'
    have hnd := C06_index_unique_partial hpm hg
    obtain ⟨hl1, hl2⟩ := locParams_ok hn hpar
    obtain ⟨hl1', hl2'⟩ := locParams_ok hn' hpar'
    unfold MaximizationInputs.debugLoglike at hdeb hdeb'
    rw [hpr.2] at hdeb hdeb'
    obtain ⟨nObs, r, r', p1, p2, l1, l2, _, _, _, key, hN, hw⟩ := evaluate_moved hpm hg hc ho hclash (fun t ht => by
      obtain ⟨v, f, h, _⟩ := hmeas t ht
      exact ⟨v, Or.inl ⟨f, h⟩⟩) hkappa hi hnu hids hpers hin (by rw [hl1]; exact hnd) (by rw [hl1']; exact hnd) (fun l x h => hval l x (hl2 _ h)) (fun l x h => hval' l x (hl2' _ h)) hmv hu hu' hdeb hdeb'
    subst hN
    have hkk : pm.dimensions.nMixtures = k := ((hasNMixtures_of_ok hpm k).mp hmix).symm
    obtain ⟨rows, hr, hframe, _⟩ := processDebugData_ok p1
    obtain ⟨rows', hr', hframe', _⟩ := processDebugData_ok p2
    obtain ⟨rows1, g1, _, hlast, hcell⟩ := C51_filtered_states_partial hpm hmeas l1
    obtain ⟨rows2, g2, _, _, hcell'⟩ := C51_filtered_states_partial hpm hmeas l2
    obtain rfl := Except.ok.inj (hr.symm.trans g1)
    obtain rfl := Except.ok.inj (hr'.symm.trans g2)
    obtain ⟨j, hj⟩ := hlast t ht
    obtain ⟨q, hq1, hq2, _⟩ := id hj
    obtain ⟨o, o', ho1, ho2, hso⟩ := key j q hq1
    rw [hq2] at hso
    obtain ⟨c1, a1, _, _, b1⟩ := filteredFrame_row (factors := pm.labels.latentFactors) (hcell t j o ⟨i, hil⟩ hj ho1)
    obtain ⟨c2, a2, _, _, b2⟩ := filteredFrame_row (factors := pm.labels.latentFactors) (hcell' t j o' ⟨i, hil⟩ hj ho2)
    dsimp only at hx hx' a1 a2 b1 b2
    rw [hframe, a1] at hx
    rw [hframe', a2] at hx'
    obtain rfl := (Prod.mk.inj (Option.some.inj hx)).2
    obtain rfl := (Prod.mk.inj (Option.some.inj hx')).2
    intro f hf
    obtain ⟨n1, n2⟩ := hnames f hf
    rw [b1 f n1 n2, b2 f n1 n2]
    have hmem : f ∈ Spec.latents m := (mem_latents_iff m f).mpr hf
    have hlabels : pm.labels.latentFactors = Spec.latents m := (labels_of_ok hpm).1
    rw [hlabels]
    have hlt : (Spec.latents m).idxOf f < nLat m := by
      have := List.idxOf_lt_length_of_mem hmem
      have e := congrArg List.length (latents_ofFn m)
      rw [List.length_ofFn] at e
      omega
    have hname : latName m (⟨(Spec.latents m).idxOf f, hlt⟩ : Fin (nLat m)) = f := by
      have h1 : (Spec.latents m)[(Spec.latents m).idxOf f]? = some f := by
        rw [List.getElem?_eq_getElem (List.idxOf_lt_length_of_mem hmem), List.getElem_idxOf]
      have h2 := congrArg (fun l => l[(Spec.latents m).idxOf f]?) (latents_ofFn m)
      rw [h1, List.getElem?_ofFn, dif_pos hlt] at h2
      exact (Option.some.inj h2).symm
    rw [List.getD_eq_getElem?_getD, List.getD_eq_getElem?_getD, List.getElem?_ofFn, List.getElem?_ofFn, dif_pos hlt, dif_pos hlt, Option.getD_some, Option.getD_some]
    have hone := hw (fun e => hkk ▸ hpos (Fin.cast hkk e)) (by subst hkk; exact hsum) o (List.mem_of_getElem? ho1) ⟨i, hil⟩
    rw [hso.weights]
    simp only [hso.states, add_mul, Finset.sum_add_distrib, ← Finset.mul_sum]
    rw [hone, mul_one, hname]
  refine ⟨x, x', y, y', hx, hx', hy, hy', hmoved, fun f o ha hf => ?_, fun f o ha hf => ?_, fun f hf hna => by rw [u1' f hf hna, u1 f hf hna, hmoved f hf]⟩
  · rw [u2' f o ha hf, u2 f o ha hf, hmoved f (hc.latent f o ha), moved_anchor hg hc hmv ht ha, hmv.others _ (by simp) (by simp) (by simp)]
    ring
  · rw [u3' f o ha hf, u3 f o ha hf, hmoved f (hc.latent f o ha), hmv.others _ (by simp) (by simp) (by simp)]
    ring

/-- **C147**: the locations of anchored factors can be moved as one likes, in each period and by any amounts, without any change of the transition functions. It holds for all transition functions, also for those written by the user. -/
theorem C147_anchored_moves {m : ModelDict ℝ} (hg : GoodNames m) (hc : CleanAnchoring m) (hflag : ¬AnchorFlag m AnchoringSpec.ignoreConstant) (custom : String → CustomFn) {val : Loc → ℝ} {τ : Nat → String → ℝ}
    (hτ : ∀ t f, ¬(∃ o, AnchoredIn m f o) → τ t f = 0) (hload : ∀ t f o, IsPeriod m t → AnchoredIn m f o → val ⟨.loadings, t, o ++ "_" ++ f, f⟩ ≠ 0) : MovedLocations custom m τ val (movedIntercepts m τ val) := by
  classical
  have hoth : ∀ l : Loc, l.cat ≠ .initialStates → ¬(l.cat = .controls ∧ l.name2 = "constant") → movedIntercepts m τ val l = val l := fun l h1 h2 => by
    unfold movedIntercepts
    rw [if_neg h1, if_neg h2]
  have hint : ∀ t v, movedIntercepts m τ val ⟨.controls, t, v, "constant"⟩ = val ⟨.controls, t, v, "constant"⟩ - ((Spec.latents m).map (fun f => if Loads m t v f then val ⟨.loadings, t, v, f⟩ * τ t f else 0)).sum := fun t v => by
    unfold movedIntercepts
    rw [if_neg (by simp), if_pos ⟨rfl, rfl⟩]
  have hanc : ∀ t, IsPeriod m t → ∀ f, anchorScale m (movedIntercepts m τ val) t f = anchorScale m val t f ∧ anchorScale m val t f ≠ 0 ∧ anchorConstant m (movedIntercepts m τ val) t f = anchorConstant m val t f - anchorScale m val t f * τ t f := by
    intro t ht f
    by_cases h : ∃ o, AnchoredIn m f o
    · obtain ⟨o, h⟩ := h
      obtain ⟨a1, _, a3⟩ := anchor_some hg.keys h val t
      obtain ⟨b1, _, b3⟩ := anchor_some hg.keys h (movedIntercepts m τ val) t
      refine ⟨by rw [a1, b1]; exact hoth _ (by simp) (by simp), a1 ▸ hload t f o ht h, ?_⟩
      rw [b3 hflag, a3 hflag, a1, hint, anchor_sum hg hc h]
    · obtain ⟨a1, a2⟩ := anchor_none hg.keys (fun o ho => h ⟨o, ho⟩) val t
      obtain ⟨b1, b2⟩ := anchor_none hg.keys (fun o ho => h ⟨o, ho⟩) (movedIntercepts m τ val) t
      rw [a1, a2, b1, b2, hτ t f h]
      simp
  refine ⟨fun e f _ => if_pos rfl, fun t v _ => hint t v, ?_, fun l h1 _ h3 => hoth l h1 h3⟩
  intro t ht cov s f _
  have ht0 : IsPeriod m t := by
    obtain ⟨n, hn, h⟩ := ht
    exact ⟨n, hn, by omega⟩
  unfold factorNext
  have h1 : (fun g => if g ∈ Spec.latents m then anchoredValue m (movedIntercepts m τ val) t g (s g + τ t g) else cov.factor t g) = fun g => if g ∈ Spec.latents m then anchoredValue m val t g (s g) else cov.factor t g := by
    funext g
    obtain ⟨e1, _, e3⟩ := hanc t ht0 g
    unfold anchoredValue
    rw [e1, e3]
    congr 1
    ring
  have h2 : (fun name => movedIntercepts m τ val ⟨.transition, t, f, name⟩) = fun name => val ⟨.transition, t, f, name⟩ := funext fun name => hoth _ (by simp) (by simp)
  obtain ⟨e1, e2, e3⟩ := hanc (t + 1) ht f
  rw [h2, e1, e3]
  have h3 := congrArg (fun x => nextValue (allFactors m) x (fun name => val ⟨.transition, t, f, name⟩) f (transitionOf custom m f)) h1
  rw [h3]
  generalize nextValue _ _ _ _ _ = N
  field_simp
  ring

end Skill
