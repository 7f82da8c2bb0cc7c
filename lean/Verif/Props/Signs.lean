import Verif.Lemmas.Signs
import Verif.Spec.Signs
import Verif.Props.UnitsStates
import Verif.Lemmas.SameLaw
/- C140: the signs of standard deviations and of columns of Cholesky factors do not matter. -/
namespace Skill
open Matrix Spec

theorem interior_signs {custom : String → CustomFn} {m : ModelDict ℝ} {k : ℕ} {val val' : Loc → ℝ} (hint : InteriorValues custom m k val) (hs : SameUpToSigns m k val val') : InteriorValues custom m k val' where
  measSds t v h := ne_zero_abs (hs.measSds _ rfl) (hint.measSds t v h)
  shockSds t ht fs hfs := (hint.shockSds t ht fs hfs).imp (fun h => ne_zero_abs (hs.shockSds _ rfl) h) id
  initial e he f hf := by
    obtain ⟨s, h1, h2⟩ := hs.chols e he f hf
    rw [h2 f hf]
    refine mul_ne_zero ?_ (hint.initial e he f hf)
    rcases h1 with rfl | rfl <;> norm_num
  weights e he := by
    rw [hs.others _ (by simp) (by simp) (by simp)]
    exact hint.weights e he
  anchoring t ht f o h := by
    rw [hs.others _ (by simp) (by simp) (by simp)]
    exact hint.anchoring t ht f o h
  transition t ht fs hfs := by
    have : (fun name => val' ⟨.transition, t, fs.1, name⟩) = fun name => val ⟨.transition, t, fs.1, name⟩ := funext fun name => hs.others _ (by simp) (by simp) (by simp)
    rw [this]
    exact hint.transition t ht fs hfs

theorem labelCarry_signs {custom : String → CustomFn} {m : ModelDict ℝ} {k nObs : ℕ} {val val' : Loc → ℝ} (hint : InteriorValues custom m k val) (hs : SameUpToSigns m k val val') :
    CarryEquiv (labelCarry m val nObs k) (labelCarry m val' nObs k) := by
  refine ⟨?_, ?_, labelCarry_regular hint, labelCarry_regular (interior_signs hint hs), fun i e => ?_⟩
  · funext i e f
    exact (hs.others _ (by simp) (by simp) (by simp)).symm
  · funext i e
    exact congrArg Real.log (hs.others _ (by simp) (by simp) (by simp)).symm
  · have hlat : ∀ f : Fin (nLat m), IsLatent m (latName m f) := fun f => by
      obtain ⟨spec, h⟩ := latName_spec m f
      exact ⟨spec, h⟩
    ext a b
    rw [mul_apply, mul_apply]
    refine Finset.sum_congr rfl (fun j _ => ?_)
    obtain ⟨s, h1, h2⟩ := hs.chols e e.2 (latName m j) (hlat j)
    have hsq : s * s = 1 := by rcases h1 with rfl | rfl <;> norm_num
    have hrow : ∀ a, (labelCarry m val' nObs k).upperChols i e j a = s * (labelCarry m val nObs k).upperChols i e j a := fun a => by
      show (if j ≤ a then val' ⟨.initialCholcovs, 0, Spec.mixtureName e, latName m a ++ "-" ++ latName m j⟩ else 0) = s * (if j ≤ a then val ⟨.initialCholcovs, 0, Spec.mixtureName e, latName m a ++ "-" ++ latName m j⟩ else 0)
      split_ifs
      · exact h2 _ (hlat a)
      · rw [mul_zero]
    rw [transpose_apply, transpose_apply, hrow, hrow, mul_mul_mul_comm, hsq, one_mul]

section
variable {qr : QR} (hqr : ValidQR qr) {m : ModelDict ℝ} {pm : Processed ℝ} (hpm : processModel m = .ok pm) (hg : GoodNames m) (hc : CleanAnchoring m) (ho : SameOrder m) (hclash : NoNameClash m)
  (hq : ∀ f, IsLatent m f → querySafe f) (hper : IsPeriod m 1) {k : ℕ} (hmix : HasNMixtures m k) (hk : k = 1 ∨ k ≠ 0 ∧ m.observedFactors.getD [] = [])
  (hkappa : ∀ o x, m.estimationOptions = some o → o.sigmaPointsScale = some x → 0 ≤ x)
  {df : LongData ℝ} (hi : IndexOk df) (hu : NoUnusedPeriods df) {ids pers : List Int} (hids : IdsOf df ids) (hpers : PeriodsOf df pers) (hdata : DataOk m df ids pers)
include hqr hpm hg hc ho hclash hq hper hmix hk hkappa hi hu hids hpers hdata

/-- Everything that is computed from the likelihood function is the same. -/
theorem evaluate_signs : ∃ inputs, getMaximizationInputs m df = .ok inputs ∧ ∀ (custom : String → CustomFn) (nan : ℝ) params params' val val', ParamsAre inputs.index params val → ParamsAre inputs.index params' val' →
    InteriorValues custom m k val → SameUpToSigns m k val val' →
    ∃ r : LoglikeResult ids.length pm.dimensions.nMixtures (nLat m), ∀ {γ : Type} (post : (nObs nMix n : ℕ) → LoglikeResult nObs nMix n → Py γ),
      inputs.evaluate post qr custom nan m params = post _ _ _ r ∧ inputs.evaluate post qr custom nan m params' = post _ _ _ r := by
  obtain ⟨inputs, hin, _, hindex, _, hev⟩ := evaluateVec_succeeds hpm hg hc ho hclash hq hper hmix hk hi hu hids hpers hdata
  refine ⟨inputs, hin, fun custom nan params params' val val' hp hp' hint hs => ?_⟩
  obtain ⟨nT, con, obs, dat, hT, hr⟩ := hev nan
  have hk0 : pm.dimensions.nMixtures = k := ((hasNMixtures_of_ok hpm k).mp hmix).symm
  have hsc : 0 ≤ pm.estimationOptions.sigmaPointsScale := (sigma_label hpm hkappa custom val ids.length nT con obs).nonneg
  subst hk0
  have hint' := interior_signs hint hs
  obtain ⟨r, h1, h2⟩ := hr qr custom val (fun fs hfs => (hint.transition 0 hper fs hfs).usable)
  obtain ⟨r', h1', h2'⟩ := hr qr custom val' (fun fs hfs => (hint'.transition 0 hper fs hfs).usable)
  have hsd : ∀ a ∈ loopArgs (nT + 1) (pm.updateInfo.map (labelRow m val)) (List.ofFn dat), a.measSd ≠ 0 := by
    obtain ⟨_, hup, _⟩ := C01_update_info_exact hpm
    intro a ha
    rw [loopArgs_label] at ha
    obtain ⟨y, hy, rfl⟩ := List.mem_map.mp ha
    exact hint.measSds _ _ ((hup _ _).mp ⟨_, (List.of_mem_zip (List.of_mem_zip hy).1).1, rfl, rfl⟩)
  have hargs : List.Forall₂ SameArgs (loopArgs (nT + 1) (pm.updateInfo.map (labelRow m val)) (List.ofFn dat)) (loopArgs (nT + 1) (pm.updateInfo.map (labelRow m val')) (List.ofFn dat)) := by
    rw [loopArgs_label, loopArgs_label, List.forall₂_map_left_iff, List.forall₂_map_right_iff, List.forall₂_same]
    intro y _
    refine ⟨val' ⟨.measSds, y.1.1.period, y.1.1.var, "-"⟩, hs.measSds _ rfl, ?_⟩
    unfold labelArgs labelRow
    have e1 : ∀ a b c, val' ⟨.loadings, a, b, c⟩ = val ⟨.loadings, a, b, c⟩ := fun a b c => hs.others _ (by simp) (by simp) (by simp)
    have e2 : ∀ a b c, val' ⟨.controls, a, b, c⟩ = val ⟨.controls, a, b, c⟩ := fun a b c => hs.others _ (by simp) (by simp) (by simp)
    simp only [e1, e2]
  have hfixed : SameFixed (labelFixed custom m pm val ids.length nT con obs) (labelFixed custom m pm val' ids.length nT con obs) := by
    refine ⟨fun t f => val' ⟨.shockSds, t, latName m f, "-"⟩, fun t f => hs.shockSds _ rfl, ?_⟩
    have e1 : ∀ a b c, val' ⟨.loadings, a, b, c⟩ = val ⟨.loadings, a, b, c⟩ := fun a b c => hs.others _ (by simp) (by simp) (by simp)
    have e2 : ∀ a b c, val' ⟨.controls, a, b, c⟩ = val ⟨.controls, a, b, c⟩ := fun a b c => hs.others _ (by simp) (by simp) (by simp)
    have e3 : ∀ a b c, val' ⟨.transition, a, b, c⟩ = val ⟨.transition, a, b, c⟩ := fun a b c => hs.others _ (by simp) (by simp) (by simp)
    unfold labelFixed scalingOf constantOf transParams
    simp only [e1, e2, e3]
  rw [logLikelihood_signs hqr hfixed (labelFixed_regular hpm hg hT hint hsc) _ (labelCarry_signs hint hs) hargs hsd, h1'] at h1
  obtain rfl := Except.ok.inj h1
  refine ⟨r', fun post => ⟨?_, ?_⟩⟩
  · unfold MaximizationInputs.evaluate
    rw [paramsVec_ok hp.unique hp.labels hp.values, hindex]
    exact h2 _
  · unfold MaximizationInputs.evaluate
    rw [paramsVec_ok hp'.unique hp'.labels hp'.values, hindex]
    exact h2' _

/-- **C140**: the outputs of loglike and debug_loglike do not depend on the signs of standard deviations and of columns of the Cholesky factors. -/
theorem C140_signs : ∃ inputs, getMaximizationInputs m df = .ok inputs ∧ ∀ (custom : String → CustomFn) (nan : ℝ) params params' val val', ParamsAre inputs.index params val → ParamsAre inputs.index params' val' →
    InteriorValues custom m k val → SameUpToSigns m k val val' →
    (∃ out, inputs.loglike qr custom nan m params = .ok out ∧ inputs.loglike qr custom nan m params' = .ok out) ∧ inputs.debugLoglike qr custom nan m params' = inputs.debugLoglike qr custom nan m params := by
  obtain ⟨inputs, hin, h⟩ := evaluate_signs hqr hpm hg hc ho hclash hq hper hmix hk hkappa hi hu hids hpers hdata
  refine ⟨inputs, hin, fun custom nan params params' val val' hp hp' hint hs => ?_⟩
  obtain ⟨r, hr⟩ := h custom nan params params' val val' hp hp' hint hs
  exact ⟨⟨_, (hr _).1, (hr _).2⟩, (hr _).2.trans (hr _).1.symm⟩

/-- **C140**: nor do the filtered states, anchored or not. -/
theorem C140_filtered_states (hnames : ∀ f, IsLatent m f → f ≠ "period" ∧ f ≠ "id") (hmeas : ∀ t, IsPeriod m t → ∃ v f, Measures m t v f ∧ ¬ ∃ g, Anchors m v g) (custom : String → CustomFn) (nan : ℝ)
    {params params' : List (Loc × ℝ)} {val val' : Loc → ℝ} (hn : (params.map Prod.fst).Nodup) (hlab : ∀ l, IsParam m l → l ∈ params.map Prod.fst) (hval : ∀ l x, (l, x) ∈ params → x = val l)
    (hn' : (params'.map Prod.fst).Nodup) (hlab' : ∀ l, IsParam m l → l ∈ params'.map Prod.fst) (hval' : ∀ l x, (l, x) ∈ params' → x = val' l) (hint : InteriorValues custom m k val) (hs : SameUpToSigns m k val val') :
    ∃ out, getFilteredStates qr custom nan m df params = .ok out ∧ getFilteredStates qr custom nan m df params' = .ok out := by
  have hint' := interior_signs hint hs
  obtain ⟨out, hout, _⟩ := C86_get_filtered_states qr hpm hg hc ho hclash hq hnames hper hmeas hmix hk hi hu hids hpers hdata custom nan hn hlab hval (fun fs hfs => (hint.transition 0 hper fs hfs).usable)
  obtain ⟨out', hout', _⟩ := C86_get_filtered_states qr hpm hg hc ho hclash hq hnames hper hmeas hmix hk hi hu hids hpers hdata custom nan hn' hlab' hval' (fun fs hfs => (hint'.transition 0 hper fs hfs).usable)
  suffices h : out' = out by exact ⟨out, hout, h ▸ hout'⟩
  obtain ⟨inputs0, hin0, hsame⟩ := C140_signs hqr hpm hg hc ho hclash hq hper hmix hk hkappa hi hu hids hpers hdata
  unfold getFilteredStates at hout hout'
  simp only [py_bind_ok, py_pure_ok] at hout hout'
  obtain ⟨inputs, hin, par, hpar, d, hdeb, pm1, hpm1, anc, hanc, rfl⟩ := hout
  obtain ⟨inputs', hin', par', hpar', d', hdeb', pm2, hpm2, anc', hanc', rfl⟩ := hout'
  obtain rfl := Except.ok.inj (hpm.symm.trans hpm1)
  obtain rfl := Except.ok.inj (hpm.symm.trans hpm2)
  obtain rfl := Except.ok.inj (hin0.symm.trans hin)
  obtain rfl := Except.ok.inj (hin0.symm.trans hin')
  have hpr : inputs0.template.map Prod.fst = pm.paramsIndex ∧ inputs0.index = pm.paramsIndex := by
    unfold getMaximizationInputs at hin
    simp only [py_bind_ok, py_pure_ok] at hin
    obtain ⟨pm1, hpm1, _, _, _, _, _, _, rfl⟩ := hin
    obtain rfl := Except.ok.inj (hpm.symm.trans hpm1)
    exact ⟨by simp [Processed.paramsTemplate, addBounds, Function.comp_def], rfl⟩
  rw [hpr.1] at hpar hpar'
  have hnd := C06_index_unique_partial hpm hg
  have hpa : ∀ {params par : List (Loc × ℝ)} {val : Loc → ℝ}, (params.map Prod.fst).Nodup → (∀ l x, (l, x) ∈ params → x = val l) → locParams params pm.paramsIndex = .ok par →
      ParamsAre pm.paramsIndex par val ∧ ∀ l, IsParam m l → par.lookup l = some (val l) := by
    intro params par val hn hval hpar
    obtain ⟨hl1, hl2⟩ := locParams_ok hn hpar
    have hn' : (par.map Prod.fst).Nodup := by rw [hl1]; exact hnd
    have hv : ∀ l x, (l, x) ∈ par → x = val l := fun l x h => hval l x (hl2 _ h)
    refine ⟨⟨hn', fun l => by rw [hl1], hv⟩, fun l hl => ?_⟩
    have : l ∈ par.map Prod.fst := by rw [hl1]; exact (mem_paramsIndex_iff hpm l).mpr hl
    obtain ⟨⟨l', x⟩, hx, rfl⟩ := List.mem_map.mp this
    rw [← hv _ _ hx]
    exact lookup_of_mem hn' hx
  obtain ⟨hp, hlook⟩ := hpa hn hval hpar
  obtain ⟨hp', hlook'⟩ := hpa hn' hval' hpar'
  have hd := (hsame custom nan par par' val val' (hpr.2 ▸ hp) (hpr.2 ▸ hp') hint hs).2
  rw [hdeb, hdeb'] at hd
  obtain rfl := Except.ok.inj hd
  obtain rfl := anchorStatesDf_same hpm hg hc ho hlook hlook' (fun t f o han => hs.others _ (by simp) (by simp) (by simp)) (fun t f o han => hs.others _ (by simp) (by simp) (by simp)) hanc hanc'
  rfl

end

open Classical in
/-- The values with nonnegative standard deviations and nonnegative diagonals of Cholesky factors. -/
noncomputable def positiveSigns (m : ModelDict ℝ) (val : Loc → ℝ) (l : Loc) : ℝ :=
  if l.cat = .measSds ∨ l.cat = .shockSds then |val l|
  else if h : l.cat = .initialCholcovs ∧ ∃ f, IsLatent m f ∧ ∃ g, IsLatent m g ∧ l.name2 = g ++ "-" ++ f then
    (if val ⟨.initialCholcovs, 0, l.name1, h.2.choose ++ "-" ++ h.2.choose⟩ < 0 then -1 else 1) * val l
  else val l

theorem positiveSigns_chol {m : ModelDict ℝ} (hg : GoodNames m) (val : Loc → ℝ) {f g : String} (hf : IsLatent m f) (hgl : IsLatent m g) (x : String) :
    positiveSigns m val ⟨.initialCholcovs, 0, x, g ++ "-" ++ f⟩ = (if val ⟨.initialCholcovs, 0, x, f ++ "-" ++ f⟩ < 0 then -1 else 1) * val ⟨.initialCholcovs, 0, x, g ++ "-" ++ f⟩ := by
  have h : (⟨.initialCholcovs, 0, x, g ++ "-" ++ f⟩ : Loc).cat = .initialCholcovs ∧ ∃ f', IsLatent m f' ∧ ∃ g', IsLatent m g' ∧ (⟨.initialCholcovs, 0, x, g ++ "-" ++ f⟩ : Loc).name2 = g' ++ "-" ++ f' := ⟨rfl, f, hf, g, hgl, rfl⟩
  have hch : ∀ y, IsLatent m y → '-' ∉ y.toList := fun y hy => (hg.chars y (List.mem_append_left _ ((mem_latents_iff m y).mpr hy))).1
  have e : h.2.choose = f := by
    obtain ⟨_, g', hg', e⟩ := h.2.choose_spec
    exact (hyphen_inj (hch g hgl) (hch g' hg') e).2.symm
  unfold positiveSigns
  rw [if_neg (by simp), dif_pos h, e]

/-- **C140**: bounds that require nonnegative standard deviations and nonnegative diagonals of Cholesky factors are no restriction of the likelihood: for all values of the parameters there are values that satisfy them and differ only in
signs, so they have the same results (by the theorems above). -/
theorem C140_no_restriction {m : ModelDict ℝ} (hg : GoodNames m) (k : ℕ) (val : Loc → ℝ) : ∃ val', SameUpToSigns m k val val' ∧ NonnegativeScales m k val' := by
  refine ⟨positiveSigns m val, ⟨?_, ?_, ?_, ?_⟩, ⟨?_, ?_, ?_⟩⟩
  · intro l hl
    unfold positiveSigns
    rw [if_pos (Or.inl hl), abs_abs]
  · intro l hl
    unfold positiveSigns
    rw [if_pos (Or.inr hl), abs_abs]
  · intro e _ f hf
    refine ⟨if val ⟨.initialCholcovs, 0, Spec.mixtureName e, f ++ "-" ++ f⟩ < 0 then -1 else 1, ?_, fun g hgl => positiveSigns_chol hg val hf hgl _⟩
    split_ifs
    · exact Or.inr rfl
    · exact Or.inl rfl
  · intro l h1 h2 h3
    unfold positiveSigns
    rw [if_neg (not_or.mpr ⟨h1, h2⟩), dif_neg (fun h => h3 h.1)]
  · intro l hl
    unfold positiveSigns
    rw [if_pos (Or.inl hl)]
    exact abs_nonneg _
  · intro l hl
    unfold positiveSigns
    rw [if_pos (Or.inr hl)]
    exact abs_nonneg _
  · intro e _ f hf
    rw [positiveSigns_chol hg val hf hf]
    split_ifs with h
    · linarith
    · linarith

end Skill
