import Verif.Lemmas.ParamsUpTo
import Verif.Props.Edits
/- C134: results for a period do not depend on parameters of later periods. -/
namespace Skill
open Matrix Spec

/-- **C134**: the contributions to the likelihood of the updates up to period `T` only depend on the parameters up to period `T` (without those of the transition from period `T` to the next period). -/
theorem C134_contributions {m : ModelDict ℝ} {pm : Processed ℝ} (hpm : processModel m = .ok pm) (hg : GoodNames m) (hc : CleanAnchoring m) (ho : SameOrder m) {df : LongData ℝ} {inputs : MaximizationInputs}
    (hin : getMaximizationInputs m df = .ok inputs) {qr : QR} {custom : String → CustomFn} {nan : ℝ} {params params' : List (Loc × ℝ)} (hn : (params.map Prod.fst).Nodup) (hn' : (params'.map Prod.fst).Nodup) {T : ℕ}
    (hsame : ∀ l x x', ParamUpTo T l → (l, x) ∈ params → (l, x') ∈ params' → x = x') {out out' : LoglikeOutput} (h : inputs.loglike qr custom nan m params = .ok out)
    (h' : inputs.loglike qr custom nan m params' = .ok out') (k : ℕ) (row : URow) (hrow : pm.updateInfo[k]? = some row) (hT : row.period ≤ T) :
    ∃ contributions, out.allContributions[k]? = some contributions ∧ out'.allContributions[k]? = some contributions := by
  obtain ⟨nObs, r, r', _, h1, h2, hl, hl', h3, h4, h5⟩ := evaluate_params_upTo hpm hg hc ho hin hn hn' hsame h h'
  obtain rfl := Except.ok.inj h1
  obtain rfl := Except.ok.inj h2
  have hk := (List.getElem?_eq_some_iff.mp hrow).1
  have e := h5 k row hrow hT
  dsimp only [LoglikeResult.output]
  rw [h3, h4, List.getElem?_map, List.getElem?_map, List.getElem?_map, List.getElem?_map, ← e, List.getElem?_eq_getElem (by omega)]
  exact ⟨_, rfl, rfl⟩

theorem filter_upTo {β : Type} {p : β → Bool} {xs ys : List β} (h : List.Forall₂ (fun x y => p x = p y ∧ (p x = true → x = y)) xs ys) : xs.filter p = ys.filter p := by
  induction h with
  | nil => rfl
  | cons hxy _ ih =>
    rename_i x y xs ys
    rw [List.filter_cons, List.filter_cons, ← hxy.1, ih]
    split_ifs with hp
    · rw [hxy.2 hp]
    · rfl

theorem forall₂_of_get {β γ : Type} {R : β → γ → Prop} {xs : List β} {ys : List γ} (hl : xs.length = ys.length) (h : ∀ (k : ℕ) (x : β) (y : γ), xs[k]? = some x → ys[k]? = some y → R x y) : List.Forall₂ R xs ys := by
  refine List.forall₂_iff_get.mpr ⟨hl, fun i h1 h2 => h i _ _ (List.getElem?_eq_getElem h1) (List.getElem?_eq_getElem h2)⟩

theorem flatten_upTo {ε δ : Type} {T : ℕ} {per : ε → ℕ} {block : URow → δ → List ε} (hblock : ∀ row x, ∀ d ∈ block row x, per d = row.period) {u : List URow} {data data' : List δ} (hl : data.length = u.length)
    (hl' : data'.length = u.length) (h : ∀ (k : ℕ) (row : URow), u[k]? = some row → row.period ≤ T → data[k]? = data'[k]?) :
    ((u.zip data).map (fun x => block x.1 x.2)).flatten.filter (fun d => decide (per d ≤ T)) = ((u.zip data').map (fun x => block x.1 x.2)).flatten.filter (fun d => decide (per d ≤ T)) := by
  induction u generalizing data data' with
  | nil => rfl
  | cons row u ih =>
    cases data with
    | nil => cases hl
    | cons x data =>
      cases data' with
      | nil => cases hl'
      | cons x' data' =>
        simp only [List.zip_cons_cons, List.map_cons, List.flatten_cons, List.filter_append]
        rw [ih (by simpa using hl) (by simpa using hl') (fun k r hr hT => by simpa using h (k + 1) r (by simpa using hr) hT)]
        congr 1
        by_cases hT : row.period ≤ T
        · have : x = x' := by simpa using h 0 row rfl hT
          rw [this]
        · have he : ∀ z, (block row z).filter (fun d => decide (per d ≤ T)) = [] := fun z => by
            rw [List.filter_eq_nil_iff]
            intro d hd
            rw [hblock row z d hd]
            simpa using hT
          rw [he, he]

theorem debugBlock_period {β : Type} {nObs nMix : ℕ} (row : URow) (data : Fin nObs → Fin nMix → β) (d : DebugRow β) (h : d ∈ debugBlock row data) : d.period = row.period := by
  unfold debugBlock at h
  obtain ⟨_, _, rfl⟩ := List.mem_map.mp h
  rfl

/-- **C134**: the same for the tables of the debugging version of the likelihood function. -/
theorem C134_debug {m : ModelDict ℝ} (hg : GoodNames m) (hc : CleanAnchoring m) (ho : SameOrder m) {df : LongData ℝ} {inputs : MaximizationInputs} (hin : getMaximizationInputs m df = .ok inputs) {qr : QR}
    {custom : String → CustomFn} {nan : ℝ} {params params' : List (Loc × ℝ)} (hn : (params.map Prod.fst).Nodup) (hn' : (params'.map Prod.fst).Nodup) {T : ℕ}
    (hsame : ∀ l x x', ParamUpTo T l → (l, x) ∈ params → (l, x') ∈ params' → x = x') {out out' : DebugData} (h : inputs.debugLoglike qr custom nan m params = .ok out)
    (h' : inputs.debugLoglike qr custom nan m params' = .ok out') :
    out.allContributions.filter (fun d => decide (d.period ≤ T)) = out'.allContributions.filter (fun d => decide (d.period ≤ T)) ∧
    out.residuals.filter (fun d => decide (d.period ≤ T)) = out'.residuals.filter (fun d => decide (d.period ≤ T)) ∧
    out.residualSds.filter (fun d => decide (d.period ≤ T)) = out'.residualSds.filter (fun d => decide (d.period ≤ T)) ∧
    out.postUpdateStates.filter (fun d => decide (d.period ≤ T)) = out'.postUpdateStates.filter (fun d => decide (d.period ≤ T)) := by
  obtain ⟨pm, hpm⟩ := accepted_of_inputs hin
  have hmodel : inputs.model = pm := by
    unfold getMaximizationInputs at hin
    simp only [py_bind_ok, py_pure_ok] at hin
    obtain ⟨pm1, hpm1, _, _, _, _, _, _, rfl⟩ := hin
    exact Except.ok.inj (hpm1.symm.trans hpm)
  unfold MaximizationInputs.debugLoglike at h h'
  rw [hmodel] at h h'
  obtain ⟨nObs, r, r', _, h1, h2, hl, hl', h3, h4, h5⟩ := evaluate_params_upTo hpm hg hc ho hin hn hn' hsame h h'
  have hpart : ∀ {β : Type} (f : StepOut nObs pm.dimensions.nMixtures (nLat m) → β) (k : ℕ) (row : URow), pm.updateInfo[k]? = some row → row.period ≤ T → (r.outs.map f)[k]? = (r'.outs.map f)[k]? := by
    intro β f k row hrow hT
    rw [List.getElem?_map, List.getElem?_map, h5 k row hrow hT]
  refine ⟨?_, ?_, ?_, ?_⟩
  · have c1 := processDebugData_contributions h1
    have c2 := processDebugData_contributions h2
    rw [h3] at c1
    rw [h4] at c2
    unfold processAllContributions at c1 c2
    dsimp only at c1 c2
    split_ifs at c1 c2
    rw [← Except.ok.inj c1, ← Except.ok.inj c2]
    exact flatten_upTo (per := ContributionRow.period) (block := fun row (con : Fin nObs → ℝ) => (List.finRange nObs).map (fun i => ({ contribution := con i, measurement := row.var, period := row.period, id := i.val } : ContributionRow)))
      (fun row x d hd => by obtain ⟨_, _, rfl⟩ := List.mem_map.mp hd; rfl) (by rw [List.length_map, hl]) (by rw [List.length_map, hl']) (hpart _)
  · rw [processResiduals_flatten (processDebugData_residuals h1).1, processResiduals_flatten (processDebugData_residuals h2).1]
    exact flatten_upTo (per := DebugRow.period) debugBlock_period (by rw [List.length_map, hl]) (by rw [List.length_map, hl']) (hpart _)
  · rw [processResiduals_flatten (processDebugData_residuals h1).2, processResiduals_flatten (processDebugData_residuals h2).2]
    exact flatten_upTo (per := DebugRow.period) debugBlock_period (by rw [List.length_map, hl]) (by rw [List.length_map, hl']) (hpart _)
  · obtain ⟨post, hp, e1⟩ := processDebugData_postUpdate h1
    obtain ⟨post', hp', e2⟩ := processDebugData_postUpdate h2
    rw [e1, e2]
    unfold createPostUpdateStates at hp hp'
    dsimp only at hp hp'
    split_ifs at hp hp'
    obtain rfl := Except.ok.inj hp
    obtain rfl := Except.ok.inj hp'
    rw [List.filter_map, List.filter_map]
    congr 1
    exact flatten_upTo (per := DebugRow.period) debugBlock_period (by rw [List.length_map, hl]) (by rw [List.length_map, hl']) (hpart _)

/-- The filtered states of the periods up to `T`. -/
theorem filteredRows_upTo {m : ModelDict ℝ} {pm : Processed ℝ} (hpm : processModel m = .ok pm) (hmeas : ∀ t, IsPeriod m t → ∃ v f, Measures m t v f ∧ ¬ ∃ g, Anchors m v g) {nObs nMix n : ℕ}
    {outs outs' : List (StepOut nObs nMix n)} (hl : outs.length = pm.updateInfo.length) (hl' : outs'.length = pm.updateInfo.length) {rows rows' : List (FilteredRow n)}
    (h : createFilteredStates outs pm.updateInfo = .ok rows) (h' : createFilteredStates outs' pm.updateInfo = .ok rows') {T : ℕ}
    (hs : ∀ (k : ℕ) (row : URow), pm.updateInfo[k]? = some row → row.period ≤ T → outs[k]? = outs'[k]?) :
    List.Forall₂ (fun a b => a.period = b.period ∧ IsPeriod m a.period ∧ (a.period ≤ T → a = b)) rows rows' := by
  obtain ⟨q, hq, hlen, hlast, hrow⟩ := C51_filtered_states_partial hpm hmeas hl
  obtain rfl := Except.ok.inj (h.symm.trans hq)
  obtain ⟨q', hq', hlen', _, hrow'⟩ := C51_filtered_states_partial hpm hmeas hl'
  obtain rfl := Except.ok.inj (h'.symm.trans hq')
  refine forall₂_of_get (hlen.trans hlen'.symm) (fun p a b ha hb => ?_)
  have hpl := (List.getElem?_eq_some_iff.mp ha).1
  rw [hlen] at hpl
  have hpos : 0 < nObs := Nat.pos_of_ne_zero (by rintro rfl; omega)
  have ht : p / nObs < pm.dimensions.nPeriods := Nat.div_lt_of_lt_mul (by rwa [Nat.mul_comm] at hpl)
  have htP := (isPeriod_iff hpm _).mpr ht
  obtain ⟨k, hk⟩ := hlast _ htP
  obtain ⟨s, hs1, hs2, _, _⟩ := id hk
  have hku := (List.getElem?_eq_some_iff.mp hs1).1
  have e := hrow _ k outs[k] ⟨p % nObs, Nat.mod_lt _ hpos⟩ hk (List.getElem?_eq_getElem (by omega))
  have e' := hrow' _ k outs'[k] ⟨p % nObs, Nat.mod_lt _ hpos⟩ hk (List.getElem?_eq_getElem (by omega))
  dsimp only at e e'
  rw [Nat.mul_comm, Nat.div_add_mod, ha] at e
  rw [Nat.mul_comm, Nat.div_add_mod, hb] at e'
  obtain rfl := Option.some.inj e
  obtain rfl := Option.some.inj e'
  refine ⟨rfl, htP, fun hT => ?_⟩
  have := hs k s hs1 (by rw [hs2]; exact hT)
  rw [List.getElem?_eq_getElem (by omega), List.getElem?_eq_getElem (by omega)] at this
  rw [Option.some.inj this]

/-- **C134**: the filtered states of the periods up to `T`, both anchored and not anchored, only depend on the parameters up to period `T`. As in C51, each period of the model needs a measurement that is not an anchoring
outcome. -/
theorem C134_filtered_states {m : ModelDict ℝ} (hg : GoodNames m) (hc : CleanAnchoring m) (ho : SameOrder m) (hq : ∀ f, IsLatent m f → querySafe f) (hper : IsPeriod m 1) (hmix : ¬ HasNMixtures m 0)
    (hmeas : ∀ t, IsPeriod m t → ∃ v f, Measures m t v f ∧ ¬ ∃ g, Anchors m v g) {df : LongData ℝ} {qr : QR} {custom : String → CustomFn} {nan : ℝ} {params params' : List (Loc × ℝ)} (hn : (params.map Prod.fst).Nodup)
    (hn' : (params'.map Prod.fst).Nodup) {T : ℕ} (hsame : ∀ l x x', ParamUpTo T l → (l, x) ∈ params → (l, x') ∈ params' → x = x') {out out' : FilteredStates} (h : getFilteredStates qr custom nan m df params = .ok out)
    (h' : getFilteredStates qr custom nan m df params' = .ok out') :
    out.unanchored.states.rows.filter (fun r => decide (r.1 ≤ T)) = out'.unanchored.states.rows.filter (fun r => decide (r.1 ≤ T)) ∧
    out.anchored.states.rows.filter (fun r => decide (r.1 ≤ T)) = out'.anchored.states.rows.filter (fun r => decide (r.1 ≤ T)) := by
  unfold getFilteredStates at h h'
  simp only [py_bind_ok, py_pure_ok] at h h'
  obtain ⟨inputs, hin, par, hpar, d, hdeb, pm, hpm, anc, hanc, rfl⟩ := h
  obtain ⟨inputs', hin', par', hpar', d', hdeb', pm', hpm', anc', hanc', rfl⟩ := h'
  obtain rfl := Except.ok.inj (hpm.symm.trans hpm')
  obtain rfl := Except.ok.inj (hin.symm.trans hin')
  have hpr : inputs.model = pm ∧ inputs.template.map Prod.fst = pm.paramsIndex := by
    unfold getMaximizationInputs at hin
    simp only [py_bind_ok, py_pure_ok] at hin
    obtain ⟨pm1, hpm1, _, _, _, _, _, _, rfl⟩ := hin
    obtain rfl := Except.ok.inj (hpm.symm.trans hpm1)
    refine ⟨rfl, ?_⟩
    simp [Processed.paramsTemplate, addBounds, Function.comp_def]
  obtain ⟨k1, k2⟩ := locParams_ok hn hpar
  obtain ⟨k1', k2'⟩ := locParams_ok hn' hpar'
  rw [hpr.2] at k1 k1'
  have hnp : (par.map Prod.fst).Nodup := by rw [k1]; exact C06_index_unique_partial hpm hg
  have hnp' : (par'.map Prod.fst).Nodup := by rw [k1']; exact C06_index_unique_partial hpm hg
  have hsame' : ∀ l x x', ParamUpTo T l → (l, x) ∈ par → (l, x') ∈ par' → x = x' := fun l x x' hl hx hx' => hsame l x x' hl (k2 _ hx) (k2' _ hx')
  have hlook : ∀ {ps : List (Loc × ℝ)}, ps.map Prod.fst = pm.paramsIndex → (ps.map Prod.fst).Nodup → ∀ l, IsParam m l → ps.lookup l = some ((ps.lookup l).getD 0) ∧ (l, (ps.lookup l).getD 0) ∈ ps := by
    intro ps e hnd l hl
    have : l ∈ ps.map Prod.fst := by rw [e]; exact (mem_paramsIndex_iff hpm l).mpr hl
    obtain ⟨⟨l', x⟩, hx, rfl⟩ := List.mem_map.mp this
    rw [lookup_of_mem hnd hx]
    exact ⟨rfl, hx⟩
  unfold MaximizationInputs.debugLoglike at hdeb hdeb'
  rw [hpr.1] at hdeb hdeb'
  obtain ⟨nObs, r, r', _, h1, h2, hl, hl', h3, h4, h5⟩ := evaluate_params_upTo hpm hg hc ho hin hnp hnp' hsame' hdeb hdeb'
  obtain ⟨rows, hr1, hf1, _⟩ := processDebugData_ok h1
  obtain ⟨rows', hr2, hf2, _⟩ := processDebugData_ok h2
  have key := filteredRows_upTo hpm hmeas hl hl' hr1 hr2 h5
  have keyF : List.Forall₂ (fun a b : ℕ × (String → ℝ) => a.1 = b.1 ∧ IsPeriod m a.1 ∧ (a.1 ≤ T → a = b)) d.filteredStates.rows d'.filteredStates.rows := by
    rw [hf1, hf2]
    unfold filteredFrame
    rw [List.forall₂_map_left_iff, List.forall₂_map_right_iff]
    refine key.imp (fun a b hab => ⟨hab.1, hab.2.1, fun hT => by rw [hab.2.2 hT]⟩)
  have toFilter : ∀ {xs ys : List (ℕ × (String → ℝ))}, List.Forall₂ (fun a b : ℕ × (String → ℝ) => a.1 = b.1 ∧ IsPeriod m a.1 ∧ (a.1 ≤ T → a = b)) xs ys →
      xs.filter (fun r => decide (r.1 ≤ T)) = ys.filter (fun r => decide (r.1 ≤ T)) := fun hf => filter_upTo (hf.imp (fun a b hab => ⟨by rw [hab.1], fun hT => hab.2.2 (of_decide_eq_true hT)⟩))
  refine ⟨toFilter keyF, ?_⟩
  have hcols : ∀ (f : String), IsLatent m f → f ∈ (filteredFrame pm.labels.latentFactors rows).columns := fun f hf => by
    obtain ⟨spec, hf⟩ := hf
    exact List.mem_append_left _ ((labels_of_ok hpm).1 ▸ List.mem_map.mpr ⟨_, hf, rfl⟩)
  have hp1 : ∀ w ∈ d.filteredStates.rows, IsPeriod m w.1 := fun w hw => by
    obtain ⟨_, _, hb⟩ := forall₂_mem keyF hw
    exact hb.2.1
  have hp2 : ∀ w ∈ d'.filteredStates.rows, IsPeriod m w.1 := fun w hw => by
    obtain ⟨_, _, hb⟩ := forall₂_mem keyF.flip hw
    exact hb.1 ▸ hb.2.1
  obtain ⟨anc1, a1, _, a2, a3⟩ := C54_anchored_states hpm hg hc ho hq hper hmix Real.log (df := d.filteredStates) (val := fun l => (par.lookup l).getD 0) (fun l hl => (hlook k1 hnp l hl).1)
    (fun f hf => by rw [hf1]; exact hcols f hf) hp1
  obtain rfl := Except.ok.inj (hanc.symm.trans a1)
  obtain ⟨anc2, b1, _, b2, b3⟩ := C54_anchored_states hpm hg hc ho hq hper hmix Real.log (df := d'.filteredStates) (val := fun l => (par'.lookup l).getD 0) (fun l hl => (hlook k1' hnp' l hl).1)
    (fun f hf => by rw [hf2]; exact hcols f hf) hp2
  obtain rfl := Except.ok.inj (hanc'.symm.trans b1)
  refine toFilter (forall₂_of_get (by rw [a2, b2, keyF.length_eq]) (fun k x y hx hy => ?_))
  have hkl : k < d.filteredStates.rows.length := by rw [← a2]; exact (List.getElem?_eq_some_iff.mp hx).1
  have hkl' : k < d'.filteredStates.rows.length := by rw [← b2]; exact (List.getElem?_eq_some_iff.mp hy).1
  have hrel := (List.forall₂_iff_get.mp keyF).2 k hkl hkl'
  rw [List.get_eq_getElem, List.get_eq_getElem] at hrel
  obtain ⟨cells', e1, e2, e3, e4⟩ := a3 k d.filteredStates.rows[k].1 d.filteredStates.rows[k].2 (List.getElem?_eq_getElem hkl)
  obtain ⟨cells2', g1, g2, g3, g4⟩ := b3 k d'.filteredStates.rows[k].1 d'.filteredStates.rows[k].2 (List.getElem?_eq_getElem hkl')
  obtain rfl := Option.some.inj (hx.symm.trans e1)
  obtain rfl := Option.some.inj (hy.symm.trans g1)
  refine ⟨hrel.1, hrel.2.1, fun hT => ?_⟩
  have heq := hrel.2.2 hT
  rw [← heq] at g2 g3 g4 ⊢
  have hP := hrel.2.1
  congr 1
  funext col
  by_cases hcol : ∃ o, AnchoredIn m col o
  · obtain ⟨o, hco⟩ := hcol
    have hpar2 : ∀ l, IsParam m l → ParamUpTo T l → (par.lookup l).getD 0 = (par'.lookup l).getD 0 := fun l hl hlT => hsame' l _ _ hlT (hlook k1 hnp l hl).2 (hlook k1' hnp' l hl).2
    have hL := hpar2 ⟨.loadings, d.filteredStates.rows[k].1, o ++ "_" ++ col, col⟩ (.loading (hc.latent col o hco) (Or.inr ⟨hP, o, hco, rfl⟩)) ⟨hT, by rintro (h | h) <;> cases h⟩
    have hC := hpar2 ⟨.controls, d.filteredStates.rows[k].1, o ++ "_" ++ col, "constant"⟩ (.control (Or.inr ⟨hP, col, o, hco, rfl⟩) (Or.inl rfl)) ⟨hT, by rintro (h | h) <;> cases h⟩
    by_cases hflag : AnchorFlag m AnchoringSpec.ignoreConstant
    · rw [e4 col o hco hflag, g4 col o hco hflag, hL]
    · rw [e3 col o hco hflag, g3 col o hco hflag, hL, hC]
  · rw [e2 col hcol, g2 col hcol]

end Skill
