import Verif.Props.Units
import Verif.Props.FilteredStates
/- C114: filtered states do not depend on the units of measurements and control variables; maximum likelihood estimates change with the units. -/
namespace Skill
open Spec

theorem createFilteredStates_same {nObs nMix n : ℕ} {outs outs' : List (StepOut nObs nMix n)} (hlen : outs'.length = outs.length)
    (h : ∀ (j : ℕ) o o', outs[j]? = some o → outs'[j]? = some o' → o'.states = o.states ∧ o'.logWeights = o.logWeights) (u : List URow) : createFilteredStates outs' u = createFilteredStates outs u := by
  unfold createFilteredStates
  congr 1
  funext keep
  congr 2
  funext x
  unfold pyIndex
  cases ho : outs[x.1]? with
  | none =>
    rw [List.getElem?_eq_none_iff] at ho
    rw [List.getElem?_eq_none (by omega)]
  | some o =>
    have hl := (List.getElem?_eq_some_iff.mp ho).1
    have ho' : outs'[x.1]? = some outs'[x.1] := List.getElem?_eq_getElem (by omega)
    rw [ho']
    obtain ⟨e1, e2⟩ := h _ _ _ ho ho'
    show (Except.ok _ : Py _) = Except.ok _
    rw [e1, e2]

/-- The anchored states only depend on the parameters of the anchoring equations. -/
theorem anchorStatesDf_same {m : ModelDict ℝ} {pm : Processed ℝ} (hpm : processModel m = .ok pm) (hg : GoodNames m) (hc : CleanAnchoring m) (ho : SameOrder m) {df out out' : StatesFrame ℝ} {params params' : List (Loc × ℝ)}
    {val val' : Loc → ℝ} (hval : ∀ l, IsParam m l → params.lookup l = some (val l)) (hval' : ∀ l, IsParam m l → params'.lookup l = some (val' l))
    (hs : ∀ t f o, AnchoredIn m f o → val' ⟨.loadings, t, o ++ "_" ++ f, f⟩ = val ⟨.loadings, t, o ++ "_" ++ f, f⟩)
    (hcon : ∀ t f o, AnchoredIn m f o → val' ⟨.controls, t, o ++ "_" ++ f, "constant"⟩ = val ⟨.controls, t, o ++ "_" ++ f, "constant"⟩)
    (h : anchorStatesDf Real.log df m params = .ok out) (h' : anchorStatesDf Real.log df m params' = .ok out') : out' = out := by
  obtain ⟨vals, p, l1, v1, p1, c1, n1, r1⟩ := C54_affine hpm hg.keys h
  obtain ⟨vals', p', l2, v2, p2, c2, n2, r2⟩ := C54_affine hpm hg.keys h'
  have e1 : vals = pm.paramsIndex.map val := by
    refine List.ext_getElem? (fun i => ?_)
    rw [List.getElem?_map]
    cases hi : pm.paramsIndex[i]? with
    | none => rw [List.getElem?_eq_none_iff] at hi; rw [List.getElem?_eq_none (by omega)]; rfl
    | some l => rw [v1 i l hi, hval l ((mem_paramsIndex_iff hpm l).mp (List.mem_of_getElem? hi))]; rfl
  have e2 : vals' = pm.paramsIndex.map val' := by
    refine List.ext_getElem? (fun i => ?_)
    rw [List.getElem?_map]
    cases hi : pm.paramsIndex[i]? with
    | none => rw [List.getElem?_eq_none_iff] at hi; rw [List.getElem?_eq_none (by omega)]; rfl
    | some l => rw [v2 i l hi, hval' l ((mem_paramsIndex_iff hpm l).mp (List.mem_of_getElem? hi))]; rfl
  subst e1 e2
  obtain ⟨⟨hl1, _⟩, _⟩ := anchoring_shapes hpm hg hc p1
  have hrows : out'.rows = out.rows := by
    refine List.ext_getElem? (fun i => ?_)
    cases hi : df.rows[i]? with
    | none => rw [List.getElem?_eq_none_iff] at hi; rw [List.getElem?_eq_none (by omega), List.getElem?_eq_none (by omega)]
    | some r =>
      obtain ⟨t, cells⟩ := r
      obtain ⟨x, hx, hx1, hx2⟩ := r1 i t cells hi
      obtain ⟨y, hy, hy1, hy2⟩ := r2 i t cells hi
      rw [hx, hy, Option.some.injEq, Prod.mk.injEq]
      refine ⟨rfl, funext fun c => ?_⟩
      by_cases hlat : IsLatent m c
      · obtain ⟨spec, hmem⟩ := hlat
        obtain ⟨j, hj⟩ := List.getElem?_of_mem (List.mem_map_of_mem (f := Prod.fst) hmem)
        obtain ⟨s, c0, q1, q2, q3⟩ := hx2 j _ hj
        obtain ⟨s', c0', q1', q2', q3'⟩ := hy2 j _ hj
        have ht : IsPeriod m t := by
          rw [isPeriod_iff hpm, ← hl1]
          by_contra hn
          unfold at2 at q1
          rw [List.getElem?_eq_none (by omega)] at q1
          cases q1
        have hj' : (allFactors m)[j]? = some c := by
          unfold allFactors
          rw [List.getElem?_append_left (List.getElem?_eq_some_iff.mp hj).1, hj]
        obtain ⟨a1, a2, a3⟩ := C08_anchoring_params_partial hpm hg hc ho rfl p1 t j c ht hj'
        obtain ⟨b1, b2, b3⟩ := C08_anchoring_params_partial hpm hg hc ho rfl p2 t j c ht hj'
        dsimp only at q3 q3'
        rw [q3, q3']
        by_cases han : ∃ o, AnchoredIn m c o
        · obtain ⟨o, han⟩ := han
          have es : s' = s := by
            rw [(a1 o han).1, Option.some.injEq] at q1
            rw [(b1 o han).1, Option.some.injEq] at q1'
            rw [← q1, ← q1', hs t c o han]
          have ec : c0' = c0 := by
            by_cases hf : AnchorFlag m AnchoringSpec.ignoreConstant
            · rw [a3 hf, Option.some.injEq] at q2
              rw [b3 hf, Option.some.injEq] at q2'
              rw [← q2, ← q2']
            · rw [(a1 o han).2 hf, Option.some.injEq] at q2
              rw [(b1 o han).2 hf, Option.some.injEq] at q2'
              rw [← q2, ← q2', hcon t c o han]
          rw [es, ec]
        · rw [(a2 han).1, Option.some.injEq] at q1
          rw [(b2 han).1, Option.some.injEq] at q1'
          rw [(a2 han).2, Option.some.injEq] at q2
          rw [(b2 han).2, Option.some.injEq] at q2'
          rw [← q1, ← q1', ← q2, ← q2']
      · rw [hx1 c hlat, hy1 c hlat]
  cases out
  cases out'
  simp_all

section
variable {m : ModelDict ℝ} {a b : ℕ → String → ℝ} {val : Loc → ℝ}

theorem unitParams_outcome {a b : Int → String → ℝ} (hok : UnitsOk m a b) (pers : List Int) {f o : String} (han : AnchoredIn m f o) (t : ℕ) :
    unitParams m (fun t => a (pers.getD t 0)) (fun t => b (pers.getD t 0)) val ⟨.loadings, t, o ++ "_" ++ f, f⟩ = val ⟨.loadings, t, o ++ "_" ++ f, f⟩ ∧
    unitParams m (fun t => a (pers.getD t 0)) (fun t => b (pers.getD t 0)) val ⟨.controls, t, o ++ "_" ++ f, "constant"⟩ = val ⟨.controls, t, o ++ "_" ++ f, "constant"⟩ := by
  obtain ⟨_, _, u1, u2⟩ := hok.outcomes (pers.getD t 0) f o han
  refine ⟨by rw [unitParams_loadings, u1, one_mul], ?_⟩
  have hz : ((m.controls.getD []).map (fun x => val ⟨.controls, t, o ++ "_" ++ f, x⟩ * b (pers.getD t 0) x / a (pers.getD t 0) x)).sum = 0 := by
    refine List.sum_eq_zero (fun x hx => ?_)
    obtain ⟨c, hc, rfl⟩ := List.mem_map.mp hx
    rw [hok.controls ⟨f, o, han⟩ _ c hc]
    simp
  rw [unitParams_constant, hz, u1, u2]
  simp

end

section
variable {qr : QR} (hqr : ValidQR qr) {m : ModelDict ℝ} {pm : Processed ℝ} (hpm : processModel m = .ok pm) (hg : GoodNames m) (hc : CleanAnchoring m) (ho : SameOrder m) (hclash : NoNameClash m)
  (hq : ∀ f, IsLatent m f → querySafe f) (hper : IsPeriod m 1) {k : ℕ} (hmix : HasNMixtures m k) (hk : k = 1 ∨ k ≠ 0 ∧ m.observedFactors.getD [] = [])
  (hkappa : ∀ o x, m.estimationOptions = some o → o.sigmaPointsScale = some x → 0 ≤ x)
  {df : LongData ℝ} (hi : IndexOk df) (hu : NoUnusedPeriods df) {ids pers : List Int} (hids : IdsOf df ids) (hpers : PeriodsOf df pers) (hdata : DataOk m df ids pers) {a b : Int → String → ℝ} (hok : UnitsOk m a b)
include hqr hpm hg hc ho hclash hq hper hmix hk hkappa hi hu hids hpers hdata hok

/-- **C114**: the filtered states do not depend on the units of measurements and control variables. With the parameters in the new units, get_filtered_states gives the same states and ranges, both anchored and not anchored. -/
theorem C114_filtered_states (hnames : ∀ f, IsLatent m f → f ≠ "period" ∧ f ≠ "id") (hmeas : ∀ t, IsPeriod m t → ∃ v f, Measures m t v f ∧ ¬ ∃ g, Anchors m v g) (custom : String → CustomFn) (nan : ℝ)
    {params params' : List (Loc × ℝ)} {val : Loc → ℝ} (hn : (params.map Prod.fst).Nodup) (hlab : ∀ l, IsParam m l → l ∈ params.map Prod.fst) (hval : ∀ l x, (l, x) ∈ params → x = val l)
    (hn' : (params'.map Prod.fst).Nodup) (hlab' : ∀ l, IsParam m l → l ∈ params'.map Prod.fst) (hval' : ∀ l x, (l, x) ∈ params' → x = unitParams m (fun t => a (pers.getD t 0)) (fun t => b (pers.getD t 0)) val l)
    (hint : InteriorValues custom m k val) (hsum : ∑ e : Fin k, val ⟨.mixtureWeights, 0, Spec.mixtureName e, "-"⟩ = 1) :
    ∃ out, getFilteredStates qr custom nan m df params = .ok out ∧ getFilteredStates qr custom nan m (changeUnits a b df) params' = .ok out := by
  have hus : ∀ fs ∈ m.factors, TransFn.Usable (allFactors m) (fun name => val ⟨.transition, 0, fs.1, name⟩) (transFnOf (custom fs.1) fs.2.transition) := fun fs hfs => (hint.transition 0 hper fs hfs).usable
  obtain ⟨out, hout, _⟩ := C86_get_filtered_states qr hpm hg hc ho hclash hq hnames hper hmeas hmix hk hi hu hids hpers hdata custom nan hn hlab hval hus
  obtain ⟨out', hout', _⟩ := C86_get_filtered_states qr hpm hg hc ho hclash hq hnames hper hmeas hmix hk (changeUnits_index (a := a) (b := b) hi) (changeUnits_periods hu) (changeUnits_idsOf hids) (changeUnits_periodsOf hpers)
    (changeUnits_dataOk hclash hok hdata) custom nan hn' hlab' hval' hus
  suffices hs : out' = out by exact ⟨out, hout, hs ▸ hout'⟩
  unfold getFilteredStates at hout hout'
  simp only [py_bind_ok, py_pure_ok] at hout hout'
  obtain ⟨inputs, hin, par, hpar, d, hdeb, pm1, hpm1, anc, hanc, rfl⟩ := hout
  obtain ⟨inputs', hin', par', hpar', d', hdeb', pm2, hpm2, anc', hanc', rfl⟩ := hout'
  obtain rfl := Except.ok.inj (hpm.symm.trans hpm1)
  obtain rfl := Except.ok.inj (hpm.symm.trans hpm2)
  have hpr : ∀ {df : LongData ℝ} {inputs : MaximizationInputs}, getMaximizationInputs m df = .ok inputs → inputs.template.map Prod.fst = pm.paramsIndex ∧ inputs.model = pm ∧ inputs.index = pm.paramsIndex := by
    intro df inputs hin
    unfold getMaximizationInputs at hin
    simp only [py_bind_ok, py_pure_ok] at hin
    obtain ⟨pm1, hpm1, _, _, _, _, _, _, rfl⟩ := hin
    obtain rfl := Except.ok.inj (hpm.symm.trans hpm1)
    exact ⟨by simp [Processed.paramsTemplate, addBounds, Function.comp_def], rfl, rfl⟩
  obtain ⟨g1, g2, g3⟩ := hpr hin
  obtain ⟨g1', g2', g3'⟩ := hpr hin'
  rw [g1] at hpar
  rw [g1'] at hpar'
  have hnd := C06_index_unique_partial hpm hg
  have hpa : ∀ {params par : List (Loc × ℝ)} {val : Loc → ℝ}, (params.map Prod.fst).Nodup → (∀ l x, (l, x) ∈ params → x = val l) → locParams params pm.paramsIndex = .ok par →
      ParamsAre pm.paramsIndex par val ∧ ∀ l, IsParam m l → par.lookup l = some (val l) := by
    intro params par val hn hval hpar
    obtain ⟨hl1, hl2⟩ := locParams_ok hn hpar
    have hn' : (par.map Prod.fst).Nodup := by rw [hl1]; exact hnd
    have hv : ∀ l x, (l, x) ∈ par → x = val l := fun l x h => hval l x (hl2 _ h)
    refine ⟨⟨hn', fun l => by rw [hl1], hv⟩, fun l hl => ?_⟩
    have : l ∈ par.map Prod.fst := by rw [hl1]; exact (mem_paramsIndex_iff hpm l).mpr hl
    obtain ⟨⟨l', x⟩, hx, rfl⟩ := List.mem_map.mp this
    rw [← hv _ _ hx]
    exact lookup_of_mem hn' hx
  obtain ⟨hp, hlook⟩ := hpa hn hval hpar
  obtain ⟨hp', hlook'⟩ := hpa hn' hval' hpar'
  unfold MaximizationInputs.debugLoglike at hdeb hdeb'
  rw [g2] at hdeb
  rw [g2'] at hdeb'
  obtain ⟨pm3, r, r', hpm3, h1, h2, l1, l2, _, _, _, _, _, key⟩ := evaluate_units hqr hg hc ho hclash hper hmix hkappa hi hu hids hpers hok hin hin' (g3 ▸ hp) (g3' ▸ hp') hint hsum hdeb hdeb'
  obtain rfl := Except.ok.inj (hpm.symm.trans hpm3)
  obtain ⟨rows, hr1, hf1, hs1⟩ := processDebugData_ok h1
  obtain ⟨rows', hr2, hf2, hs2⟩ := processDebugData_ok h2
  have hrows : rows' = rows := by
    rw [createFilteredStates_same (l2.trans l1.symm) (fun j o o' ho ho' => by
      have hj := (List.getElem?_eq_some_iff.mp ho).1
      obtain ⟨e1, e2, _⟩ := key j _ o o' (List.getElem?_eq_getElem (by omega)) ho ho'
      exact ⟨e1, e2⟩), hr1] at hr2
    exact (Except.ok.inj hr2).symm
  subst hrows
  rw [hf2, ← hf1] at hanc'
  obtain rfl := anchorStatesDf_same hpm hg hc ho hlook hlook' (fun t f o han => (unitParams_outcome hok pers han t).1) (fun t f o han => (unitParams_outcome hok pers han t).2) hanc hanc'
  rw [hf1, hf2, hs1, hs2]

/-- **C114**: units do not matter for estimation. If contributions are not clipped, the difference between the log likelihoods of two parameter vectors is the same in both units, so a parameter vector has the larger log likelihood
if and only if it has the larger one when data and parameters are expressed in other units. -/
theorem C114_comparison (hno : NoClipping m) : ∃ inputs inputs', getMaximizationInputs m df = .ok inputs ∧ getMaximizationInputs m (changeUnits a b df) = .ok inputs' ∧
    ∀ (custom : String → CustomFn) (nan : ℝ) p q p' q' val val', ParamsAre inputs.index p val → ParamsAre inputs.index q val' →
      ParamsAre inputs'.index p' (unitParams m (fun t => a (pers.getD t 0)) (fun t => b (pers.getD t 0)) val) → ParamsAre inputs'.index q' (unitParams m (fun t => a (pers.getD t 0)) (fun t => b (pers.getD t 0)) val') →
      InteriorValues custom m k val → ∑ e : Fin k, val ⟨.mixtureWeights, 0, Spec.mixtureName e, "-"⟩ = 1 → InteriorValues custom m k val' → ∑ e : Fin k, val' ⟨.mixtureWeights, 0, Spec.mixtureName e, "-"⟩ = 1 →
      ∃ outp outq outp' outq', inputs.loglike qr custom nan m p = .ok outp ∧ inputs.loglike qr custom nan m q = .ok outq ∧ inputs'.loglike qr custom nan m p' = .ok outp' ∧ inputs'.loglike qr custom nan m q' = .ok outq' ∧
        outq'.value - outp'.value = outq.value - outp.value := by
  obtain ⟨inputs, inputs', updates, h1, h2, _, _, h⟩ := C114_units hqr hpm hg hc ho hclash hq hper hmix hk hkappa hi hu hids hpers hdata hok
  refine ⟨inputs, inputs', h1, h2, ?_⟩
  intro custom nan p q p' q' val val' hp hq hp' hq' hv hs hv' hs'
  obtain ⟨o1, o2, e1, e2, _, e3⟩ := h custom nan p p' val hp hp' hv hs
  obtain ⟨o3, o4, e4, e5, _, e6⟩ := h custom nan q q' val' hq hq' hv' hs'
  refine ⟨o1, o3, o2, o4, e1, e4, e2, e5, ?_⟩
  rw [(e3 hno).2, (e6 hno).2]
  ring

end
end Skill
