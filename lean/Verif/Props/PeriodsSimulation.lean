import Verif.Props.SwitchSimulation
/- C115: simulated data of models with fewer periods. -/
namespace Skill
open Matrix Spec

theorem measures_reduce {m : ModelDict ℝ} {n' t : ℕ} (ht : t < n') (v f : String) : Measures (reduceNPeriods m n') t v f ↔ Measures m t v f := by
  refine ⟨(smaller_reduceNPeriods m n').measures t v f, ?_⟩
  rintro ⟨s, hs, ms, h1, h2⟩
  refine ⟨_, mem_reduceNPeriods.mpr ⟨s, hs, rfl⟩, ms, ?_, h2⟩
  rw [reduceFactor_measurements, getElem?_take_some]
  exact ⟨ht, h1⟩

theorem factorNext_reduce (custom : String → CustomFn) (m : ModelDict ℝ) (n' : ℕ) (val : Loc → ℝ) (cov : Covariates) (t : ℕ) (s : String → ℝ) (f : String) : factorNext custom (reduceNPeriods m n') val cov t s f = factorNext custom m val cov t s f := by
  have he := edit_reduceNPeriods m n'
  unfold factorNext
  obtain ⟨ha1, ha2, ha3⟩ := he.anchor_eq val
  rw [he.allFactors_eq, he.latents_eq, ha1, ha2, ha3]
  congr 2
  unfold transitionOf
  have : (reduceNPeriods m n').factors.lookup f = (m.factors.lookup f).map (reduceFactorPeriods n') := lookup_mapSpec (reduceFactorPeriods n') m.factors f
  rw [this]
  cases m.factors.lookup f <;> rfl

theorem statesWith_reduce {m : ModelDict ℝ} {N n' : ℕ} (hN : ∀ t, IsPeriod m t ↔ t < N) (hN' : ∀ t, IsPeriod (reduceNPeriods m n') t ↔ t < n') (hle : n' ≤ N) (custom : String → CustomFn) {val : Loc → ℝ} {cov : Covariates}
    {policies : List Policy} (hpol : ∀ p ∈ policies, IsPeriod m (p.period + 1) → p.period + 1 ≠ n') {start start' : String → ℝ} {shock shock' : Nat → String → ℝ} {pol pol' : Nat → ℝ} (h1 : ∀ f ∈ Spec.latents m, start' f = start f)
    (h2 : ∀ t, t + 1 < n' → ∀ f ∈ Spec.latents m, shock' t f = shock t f) (h4 : ∀ k < policies.length, pol' k = pol k) {t : ℕ} (ht : t < n') :
    ∀ f ∈ Spec.latents m, statesWith custom (reduceNPeriods m n') val cov policies start' shock' pol' t f = statesWith custom m val cov policies start shock pol t f := by
  have hef : ∀ t, t < n' → ∀ f, effectWith (reduceNPeriods m n') policies pol' t f = effectWith m policies pol t f := by
    intro t ht f
    unfold effectWith
    rw [policyEffect_congr h4]
    by_cases h' : t + 1 < n'
    · rw [if_pos ((hN' _).mpr h'), if_pos ((hN _).mpr (by omega))]
    · rw [if_neg (fun h => h' ((hN' _).mp h))]
      by_cases hp : IsPeriod m (t + 1)
      · rw [if_pos hp]
        unfold policyEffect
        rw [List.filter_eq_nil_iff.mpr]
        · rfl
        · rintro ⟨p, j⟩ hmem
          have hpm : p ∈ policies := List.fst_mem_of_mem_zipIdx hmem
          simp only [decide_eq_true_eq]
          rintro ⟨h, _⟩
          refine hpol p hpm (by rw [h]; exact hp) ?_
          omega
      · rw [if_neg hp]
  induction t with
  | zero =>
    intro f hf
    simp only [statesWith, h1 f hf, hef 0 ht]
  | succ t ih =>
    intro f hf
    simp only [statesWith, hef (t + 1) ht, h2 t ht f hf]
    rw [factorNext_reduce, factorNext_congr custom m val cov t (ih (by omega))]

theorem measurementWith_reduce {m : ModelDict ℝ} {n' t : ℕ} (ht : t < n') {val : Loc → ℝ} {v : String} {cov : Covariates} {states states' : Nat → String → ℝ} (hs : ∀ f ∈ Spec.latents m, states' t f = states t f) (error : ℝ) :
    measurementWith (reduceNPeriods m n') val cov states' error t v = measurementWith m val cov states error t v := by
  have he := edit_reduceNPeriods m n'
  unfold measurementWith
  rw [he.latents_eq]
  congr 3
  refine List.map_congr_left (fun f hf => ?_)
  rw [hs f hf, propext (measures_reduce ht v f), propext (he.anchors v f)]

/-- **C115**: simulate a dataset with the same random numbers for a model and for the model with the first n' periods (as returned by reduce_n_periods). simulate_dataset returns the same latent factors and measurements for these periods.
Policies of the last period of the smaller model are excluded: simulate_dataset does not apply policies in the last period of a model. -/
theorem C115_simulation (root : NormalRoot) {m : ModelDict ℝ} {pm : Processed ℝ} (hpm : processModel m = .ok pm) {k : ℕ} (hm : SimulationModel m k) {N n' : ℕ} (hN : IsNPeriods m N) (h2 : 2 ≤ n') (hle : n' ≤ N) (custom : String → CustomFn) (nan : ℝ)
    {val : Loc → ℝ} {policies : List Policy} (hpol : ∀ p ∈ policies, IsPeriod m (p.period + 1) → p.period + 1 ≠ n') (hv : SimulationValues custom m k val policies) {params params' : List (Loc × ℝ)} (hparams : HasParams m params val)
    (hparams' : HasParams (reduceNPeriods m n') params' val) {nObs : Option Nat} {data : Option (LongData ℝ)} {n : ℕ} {cov : Nat → Covariates} (hi : Individuals m nObs data n cov) (hn : 0 < n) {draws : DatasetDraws}
    (hd : k ≠ 1 → ∀ i < n, draws.element i < k) :
    ∃ (x : Nat → Cell m → ℝ) (x' : Nat → Cell (reduceNPeriods m n') → ℝ) (out out' : SimulatedDataset), simulateDataset root custom nan m params nObs data policies draws = .ok out ∧
      simulateDataset root custom nan (reduceNPeriods m n') params' nObs data policies draws = .ok out' ∧ DatasetIs m val n x out ∧ DatasetIs (reduceNPeriods m n') val n x' out' ∧
      (∀ i < n, ∀ c c', c'.1 = c.1 → x' i (.inl c') = x i (.inl c)) ∧ (∀ i < n, ∀ c c', c'.1 = c.1 → x' i (.inr c') = x i (.inr c)) ∧
      ∀ i < n, ∀ t < n', out'.measurements.rows[i * n' + t]? = out.measurements.rows[i * N + t]? := by
  obtain ⟨pm', hpm'⟩ := accepted_reduceNPeriods (n := n') ⟨pm, hpm⟩ (by omega)
  have he := edit_reduceNPeriods m n'
  have hNN := IsNPeriods.unique hN (processModel_nPeriods hpm)
  subst hNN
  obtain ⟨hT', hupd⟩ := updateInfo_reduce hpm hle hpm'
  have hper := isPeriod_iff hpm
  have hper' : ∀ t, IsPeriod (reduceNPeriods m n') t ↔ t < n' := fun t => by rw [isPeriod_iff hpm', hT']
  have hup : ∀ t v, IsUpdate (reduceNPeriods m n') t v ↔ IsUpdate m t v ∧ t < n' := fun t v => by
    rw [← (C01_update_info_exact hpm').2.1, ← (C01_update_info_exact hpm).2.1, hupd]
    constructor
    · rintro ⟨r, hr, rfl, rfl⟩
      exact ⟨⟨r, (List.mem_filter.mp hr).1, rfl, rfl⟩, of_decide_eq_true (List.mem_filter.mp hr).2⟩
    · rintro ⟨⟨r, hr, rfl, rfl⟩, h⟩
      exact ⟨r, List.mem_filter.mpr ⟨hr, decide_eq_true h⟩, rfl, rfl⟩
  have hle' : ∀ t, IsPeriod (reduceNPeriods m n') t → IsPeriod m t := fun t h => (hper t).mpr (((hper' t).mp h).trans_le hle)
  have hm' : SimulationModel (reduceNPeriods m n') k := {
    names := he.goodNames hm.names
    anchoring := ⟨he.cleanAnchoring hm.anchoring.1, he.sameOrder hm.anchoring.2.1, he.noNameClash hm.anchoring.2.2⟩
    safe := fun f hf => hm.safe f ((he.isLatent f).mp hf)
    columns := fun f h => hm.columns f (h.imp (he.isLatent f).mp (fun ⟨t, ht⟩ => ⟨t, ((hup t f).mp ht).1⟩))
    periods := (hper' 1).mpr (by omega)
    updates := fun t ht => by
      obtain ⟨v, hv⟩ := hm.updates t (hle' t ht)
      exact ⟨v, (hup t v).mpr ⟨hv, (hper' t).mp ht⟩⟩
    mixture := hm.mixture
    elements := hm.elements }
  have hi' : Individuals (reduceNPeriods m n') nObs data n cov := by
    cases hi with
    | @ofData _ df ids pers _ h1 h2 h3 h4 h5 h6 =>
      refine .ofData h1 h2 h3 h4 ⟨h5.keys, fun f o ha => h5.outcomes f o ((he.anchoredIn f o).mp ha), fun t ht c hc => ?_, fun t v h => ?_, fun t ht f hf => ?_⟩ (fun i hil t ht => ?_)
      · simp only [he.hasVariable, he.hasValue]
        exact h5.controls t (hle' t ht) c hc
      · rw [he.hasVariable]
        exact h5.measurements t v ((hup t v).mp h).1
      · simp only [he.hasVariable, he.hasValue]
        exact h5.observed t (hle' t ht) f hf
      · obtain ⟨r, hr, hr1, hr2⟩ := h6 i hil t (hle' t ht)
        refine ⟨r, hr, fun c hc => ?_, fun f hf => ?_⟩
        · rw [he.valueIs]
          exact hr1 c hc
        · rw [he.valueIs]
          exact hr2 f hf
    | ofNumber h1 h2 h3 => exact .ofNumber h1 h2 h3
  have hv' : SimulationValues custom (reduceNPeriods m n') k val policies := ⟨hv.positive, hv.sum, fun t ht fs hfs => by
    obtain ⟨f, spec⟩ := fs
    obtain ⟨s, hs', rfl⟩ := mem_reduceNPeriods.mp hfs
    rw [he.allFactors_eq]
    exact hv.usable t (hle' _ ht) (f, s) hs', fun p hp h => by
    obtain ⟨h1, h2⟩ := hv.policies p hp (hle' _ h)
    exact ⟨(he.isLatent _).mpr h1, h2⟩⟩
  obtain ⟨nT, hT⟩ : ∃ nT, pm.dimensions.nPeriods = nT + 2 := ⟨pm.dimensions.nPeriods - 2, by omega⟩
  obtain ⟨nT', rfl⟩ : ∃ nT', n' = nT' + 2 := ⟨n' - 2, by omega⟩
  have hg := hm.names
  have h0 : 0 < k := Nat.pos_of_ne_zero hm.elements
  have hel : k ≠ 1 → ∀ i < n, draws.element i = (((if h : draws.element i < k then ⟨draws.element i, h⟩ else ⟨0, h0⟩) : Fin k) : ℕ) := fun h i hil => by rw [dif_pos (hd h i hil)]
  obtain ⟨out, ho, hx⟩ := simulateDataset_cells root hpm hm custom nan hv hparams hi hn hT (draws := draws) (e := fun i => (if h : draws.element i < k then ⟨draws.element i, h⟩ else ⟨0, h0⟩)) hel
  obtain ⟨out', ho', hx'⟩ := simulateDataset_cells root hpm' hm' custom nan hv' hparams' hi' hn hT' (draws := draws) (e := fun i => (if h : draws.element i < k then ⟨draws.element i, h⟩ else ⟨0, h0⟩)) hel
  have hnl : nLat (reduceNPeriods m (nT' + 2)) = nLat m := by simpa [nLat] using congrArg List.length he.factors
  have hrows : ∀ t < nT' + 2, (rowsOf (pm'.updateInfo.map (labelRow (reduceNPeriods m (nT' + 2)) val)) t).map (fun r => (r.var, r.sd)) = (rowsOf (pm.updateInfo.map (labelRow m val)) t).map (fun r => (r.var, r.sd)) := by
    intro t ht
    unfold rowsOf
    rw [hupd, List.filter_map, List.filter_map, List.map_map, List.map_map, List.filter_filter]
    have : (pm.updateInfo.filter (fun r => (((fun r => decide (r.period = t)) ∘ labelRow (reduceNPeriods m (nT' + 2)) val) r && decide (r.period < nT' + 2)))) = pm.updateInfo.filter ((fun r => decide (r.period = t)) ∘ labelRow m val) := by
      refine List.filter_congr (fun r _ => ?_)
      show (decide (r.period = t) && decide (r.period < nT' + 2)) = decide (r.period = t)
      by_cases h : r.period = t
      · simp [h, ht]
      · simp [h]
    exact congrArg (List.map _) this
  have hstates : ∀ i < n, ∀ (e : Fin k), ∀ t < nT' + 2, ∀ f ∈ Spec.latents m, statesWith custom (reduceNPeriods m (nT' + 2)) val (cov i) policies
      (fun f => val ⟨.initialStates, 0, Spec.mixtureName e, f⟩ + wStart (reduceNPeriods m (nT' + 2)) (blockMul (simRoot root (simFixed custom (reduceNPeriods m (nT' + 2)) pm' val n nT' cov) (pm'.updateInfo.map (labelRow (reduceNPeriods m (nT' + 2)) val)) policies.length ((labelCarry (reduceNPeriods m (nT' + 2)) val n k).upperChols ⟨0, hn⟩ e)) (fun a => draws.normal i (simDraw a))) f) (wShock (reduceNPeriods m (nT' + 2)) (blockMul (simRoot root (simFixed custom (reduceNPeriods m (nT' + 2)) pm' val n nT' cov) (pm'.updateInfo.map (labelRow (reduceNPeriods m (nT' + 2)) val)) policies.length ((labelCarry (reduceNPeriods m (nT' + 2)) val n k).upperChols ⟨0, hn⟩ e)) (fun a => draws.normal i (simDraw a)))) (wPolicy (reduceNPeriods m (nT' + 2)) (blockMul (simRoot root (simFixed custom (reduceNPeriods m (nT' + 2)) pm' val n nT' cov) (pm'.updateInfo.map (labelRow (reduceNPeriods m (nT' + 2)) val)) policies.length ((labelCarry (reduceNPeriods m (nT' + 2)) val n k).upperChols ⟨0, hn⟩ e)) (fun a => draws.normal i (simDraw a)))) t f =
      statesWith custom m val (cov i) policies (fun f => val ⟨.initialStates, 0, Spec.mixtureName e, f⟩ + wStart m (blockMul (simRoot root (simFixed custom m pm val n nT cov) (pm.updateInfo.map (labelRow m val)) policies.length ((labelCarry m val n k).upperChols ⟨0, hn⟩ e)) (fun a => draws.normal i (simDraw a))) f) (wShock m (blockMul (simRoot root (simFixed custom m pm val n nT cov) (pm.updateInfo.map (labelRow m val)) policies.length ((labelCarry m val n k).upperChols ⟨0, hn⟩ e)) (fun a => draws.normal i (simDraw a)))) (wPolicy m (blockMul (simRoot root (simFixed custom m pm val n nT cov) (pm.updateInfo.map (labelRow m val)) policies.length ((labelCarry m val n k).upperChols ⟨0, hn⟩ e)) (fun a => draws.normal i (simDraw a)))) t f := by
    intro i hil e t ht
    refine statesWith_reduce hper hper' hle custom hpol (fun f _ => ?_) (fun t ht f _ => ?_) (fun j hj => ?_) ht
    · rw [wStart_eq root (reduceNPeriods m (nT' + 2)) _ _ _ (draws.normal i), wStart_eq root m _ _ _ (draws.normal i), shockOf_edit root he.latents_eq hnl (he.upperChols_eq hnl val ⟨0, hn⟩ e)]
    · rw [wShock_eq root (reduceNPeriods m (nT' + 2)) _ _ _ (draws.normal i) (show t < nT' + 1 by omega), wShock_eq root m _ _ _ (draws.normal i) (show t < nT + 1 by omega)]
      refine shockOf_edit root he.latents_eq hnl (fun a b ha hb ha' hb' => ?_) _ _
      have hname := he.latName_eq
      by_cases hab : a = b
      · subst hab
        rw [diagonal_apply_eq, diagonal_apply_eq]
        show val ⟨.shockSds, (jaxIndex nT' t).val, latName (reduceNPeriods m (nT' + 2)) a, "-"⟩ ^ 2 = val ⟨.shockSds, (jaxIndex nT t).val, latName m a, "-"⟩ ^ 2
        rw [hname, jaxIndex_val (by omega), jaxIndex_val (by omega)]
      · rw [diagonal_apply_ne _ (by simpa using hab), diagonal_apply_ne _ (by simpa using hab)]
    · rw [wPolicy_eq root (reduceNPeriods m (nT' + 2)) _ _ _ (draws.normal i) hj, wPolicy_eq root m _ _ _ (draws.normal i) hj]
  have hmeasure : ∀ i < n, ∀ t v (hc : IsUpdate m t v) (hc' : IsUpdate (reduceNPeriods m (nT' + 2)) t v), noiseCells custom (reduceNPeriods m (nT' + 2)) val (cov i) policies ((if h : draws.element i < k then ⟨draws.element i, h⟩ else ⟨0, h0⟩) : Fin k) (blockMul (simRoot root (simFixed custom (reduceNPeriods m (nT' + 2)) pm' val n nT' cov) (pm'.updateInfo.map (labelRow (reduceNPeriods m (nT' + 2)) val)) policies.length ((labelCarry (reduceNPeriods m (nT' + 2)) val n k).upperChols ⟨0, hn⟩ (if h : draws.element i < k then ⟨draws.element i, h⟩ else ⟨0, h0⟩))) (fun a => draws.normal i (simDraw a))) (.inr ⟨(t, v), hc'⟩) = noiseCells custom m val (cov i) policies ((if h : draws.element i < k then ⟨draws.element i, h⟩ else ⟨0, h0⟩) : Fin k) (blockMul (simRoot root (simFixed custom m pm val n nT cov) (pm.updateInfo.map (labelRow m val)) policies.length ((labelCarry m val n k).upperChols ⟨0, hn⟩ (if h : draws.element i < k then ⟨draws.element i, h⟩ else ⟨0, h0⟩))) (fun a => draws.normal i (simDraw a))) (.inr ⟨(t, v), hc⟩) := by
    intro i hil t v hc hc'
    have hp : t < nT' + 2 := (hper' t).mp (isUpdate_period hc')
    have herr := (wError_eq root (reduceNPeriods m (nT' + 2)) (simFixed custom (reduceNPeriods m (nT' + 2)) pm' val n nT' cov) (pm'.updateInfo.map (labelRow (reduceNPeriods m (nT' + 2)) val)) ((labelCarry (reduceNPeriods m (nT' + 2)) val n k).upperChols ⟨0, hn⟩ (if h : draws.element i < k then ⟨draws.element i, h⟩ else ⟨0, h0⟩)) (draws.normal i) (nPol := policies.length) hp v).trans
      ((errorOf_edit root (hrows t hp) _ v).trans (wError_eq root m (simFixed custom m pm val n nT cov) (pm.updateInfo.map (labelRow m val)) ((labelCarry m val n k).upperChols ⟨0, hn⟩ (if h : draws.element i < k then ⟨draws.element i, h⟩ else ⟨0, h0⟩)) (draws.normal i) (nPol := policies.length) (show t < nT + 2 by omega) v).symm)
    exact (congrArg (fun e => measurementWith (reduceNPeriods m (nT' + 2)) val (cov i) _ e t v) herr).trans (measurementWith_reduce hp (hstates i hil (if h : draws.element i < k then ⟨draws.element i, h⟩ else ⟨0, h0⟩) t hp) _)
  have hM : ∀ i < n, ∀ (c : {p : Nat × String // IsUpdate m p.1 p.2}) (c' : {p : Nat × String // IsUpdate (reduceNPeriods m (nT' + 2)) p.1 p.2}), c'.1 = c.1 → ((fun i => noiseCells custom (reduceNPeriods m (nT' + 2)) val (cov i) policies ((if h : draws.element i < k then ⟨draws.element i, h⟩ else ⟨0, h0⟩) : Fin k) (blockMul (simRoot root (simFixed custom (reduceNPeriods m (nT' + 2)) pm' val n nT' cov) (pm'.updateInfo.map (labelRow (reduceNPeriods m (nT' + 2)) val)) policies.length ((labelCarry (reduceNPeriods m (nT' + 2)) val n k).upperChols ⟨0, hn⟩ (if h : draws.element i < k then ⟨draws.element i, h⟩ else ⟨0, h0⟩))) (fun a => draws.normal i (simDraw a)))) i (.inr c')) =
      ((fun i => noiseCells custom m val (cov i) policies ((if h : draws.element i < k then ⟨draws.element i, h⟩ else ⟨0, h0⟩) : Fin k) (blockMul (simRoot root (simFixed custom m pm val n nT cov) (pm.updateInfo.map (labelRow m val)) policies.length ((labelCarry m val n k).upperChols ⟨0, hn⟩ (if h : draws.element i < k then ⟨draws.element i, h⟩ else ⟨0, h0⟩))) (fun a => draws.normal i (simDraw a)))) i (.inr c)) := by
    rintro i hil ⟨⟨t, v⟩, hc⟩ ⟨p', hc'⟩ rfl
    exact hmeasure i hil t v hc hc'
  refine ⟨_, _, out, out', ho, ho', hx, hx', ?_, hM, fun i hil t ht => ?_⟩
  · rintro i hil ⟨⟨t, f⟩, hc⟩ ⟨p', hc'⟩ rfl
    exact hstates i hil _ t ((hper' t).mp hc'.1) f hc.2
  · have hN' : IsNPeriods (reduceNPeriods m (nT' + 2)) (nT' + 2) := by
      have := isNPeriods_of_ok hpm'
      rwa [hT'] at this
    obtain ⟨r, hr, r1, r2, r3, r4⟩ := hx.measurements _ hN _ hil t (by omega)
    obtain ⟨r', hr', r1', r2', r3', r4'⟩ := hx'.measurements (nT' + 2) hN' _ hil t ht
    rw [hr, hr']
    congr 1
    have hcell : r'.cell = r.cell := by
      funext v
      by_cases hv : IsUpdate m t v
      · exact (r3' ⟨(_, v), (hup _ _).mpr ⟨hv, ht⟩⟩ rfl).trans ((congrArg some (hM _ hil ⟨(_, v), hv⟩ ⟨(_, v), (hup _ _).mpr ⟨hv, ht⟩⟩ rfl)).trans (r3 ⟨(_, v), hv⟩ rfl).symm)
      · rw [r4' v (fun h => hv ((hup _ _).mp h).1), r4 v hv]
    cases r
    cases r'
    simp only at hcell r1 r2 r1' r2'
    subst hcell r1 r2 r1' r2'
    rfl

end Skill
