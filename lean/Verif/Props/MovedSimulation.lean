import Verif.Props.MovedStates
import Verif.Props.SimulationUpTo
import Verif.Props.SimulationUnits
/- C148: simulated data and the locations of latent factors. -/
namespace Skill
open Matrix Spec

/-- Measurement errors depend on the names and the standard deviations of the measurements. -/
theorem errorOf_congr (root : NormalRoot) {n nC : ℕ} {R R' : List (UpdateParams n nC)} (h : R.map (fun r => (r.var, r.sd)) = R'.map (fun r => (r.var, r.sd))) (z : ℕ → ℝ) (v : String) : errorOf root R z v = errorOf root R' z v := by
  have key : ∀ {k k' : ℕ} (sd : Fin k → ℝ) (sd' : Fin k' → ℝ) (p : ℕ), k = k' → (∀ j (h : j < k) (h' : j < k'), sd ⟨j, h⟩ = sd' ⟨j, h'⟩) →
      (if h : p < k then (root k (diagonal (fun j => sd j ^ 2)) *ᵥ (fun j => z j.val)) ⟨p, h⟩ else 0) = if h : p < k' then (root k' (diagonal (fun j => sd' j ^ 2)) *ᵥ (fun j => z j.val)) ⟨p, h⟩ else 0 := by
    intro k k' sd sd' p hk hsd
    subst hk
    obtain rfl : sd = sd' := funext (fun j => hsd j.val j.isLt j.isLt)
    rfl
  have hl : R.length = R'.length := by simpa using congrArg List.length h
  have hv : R.map (fun r => r.var) = R'.map (fun r => r.var) := by
    have := congrArg (List.map Prod.fst) h
    rwa [List.map_map, List.map_map] at this
  have hs : R.map (fun r => r.sd) = R'.map (fun r => r.sd) := by
    have := congrArg (List.map Prod.snd) h
    rwa [List.map_map, List.map_map] at this
  unfold errorOf
  rw [hv]
  refine key (fun j => (R.get j).sd) (fun j => (R'.get j).sd) _ hl (fun j h1 h2 => ?_)
  have := congrArg (fun l => l[j]?) hs
  simp only [List.getElem?_map, List.getElem?_eq_getElem h1, List.getElem?_eq_getElem h2, Option.map_some, Option.some.injEq] at this
  exact this

section
variable {m : ModelDict ℝ} {custom : String → CustomFn} {τ : Nat → String → ℝ} {val val' : Loc → ℝ}

/-- Latent factors of an individual after a change of locations. -/
theorem statesWith_moved (hmv : MovedLocations custom m τ val val') (cov : Covariates) (policies : List Policy) {start start' : String → ℝ} {shock shock' : Nat → String → ℝ} {pol pol' : Nat → ℝ}
    (h1 : ∀ f ∈ Spec.latents m, start' f = start f + τ 0 f) (h2 : ∀ t, IsPeriod m (t + 1) → ∀ f ∈ Spec.latents m, shock' t f = shock t f) (h3 : ∀ t f, policyEffect policies pol' t f = policyEffect policies pol t f) {t : ℕ} (hp : IsPeriod m t) :
    ∀ f ∈ Spec.latents m, statesWith custom m val' cov policies start' shock' pol' t f = statesWith custom m val cov policies start shock pol t f + τ t f := by
  have he : ∀ t f, effectWith m policies pol' t f = effectWith m policies pol t f := by
    intro t f
    unfold effectWith
    rw [h3]
  induction t with
  | zero =>
    intro f hf
    simp only [statesWith, h1 f hf, he]
    ring
  | succ t ih =>
    intro f hf
    have ht' : IsPeriod m t := by
      obtain ⟨N, hN, hlt⟩ := hp
      exact ⟨N, hN, by omega⟩
    simp only [statesWith, he, h2 t hp f hf]
    rw [factorNext_congr custom m val' cov t (s' := fun g => statesWith custom m val cov policies start shock pol t g + τ t g) (ih ht'), hmv.transitions t hp cov _ f ((mem_latents_iff m f).mp hf)]
    ring

/-- Measurements do not change. -/
theorem measurementWith_moved (hmv : MovedLocations custom m τ val val') (hg : GoodNames m) {cov : Covariates} {t : ℕ} (hone : cov.control t "constant" = 1) {states states' : Nat → String → ℝ} (hs : ∀ f ∈ Spec.latents m, states' t f = states t f + τ t f)
    (error : ℝ) {v : String} (hup : IsUpdate m t v) : measurementWith m val' cov states' error t v = measurementWith m val cov states error t v := by
  classical
  have hctrl : (m.controls.getD []).map (fun x => val' ⟨.controls, t, v, x⟩ * cov.control t x) = (m.controls.getD []).map (fun x => val ⟨.controls, t, v, x⟩ * cov.control t x) := by
    refine List.map_congr_left (fun x hx => ?_)
    rw [hmv.others ⟨.controls, t, v, x⟩ (by simp) (by simp) (fun h => (List.nodup_cons.mp hg.controls).1 (h.2 ▸ hx))]
  have hload : ((Spec.latents m).map (fun f => if Measures m t v f ∨ Anchors m v f then val' ⟨.loadings, t, v, f⟩ * states' t f else 0)).sum =
      ((Spec.latents m).map (fun f => if Measures m t v f ∨ Anchors m v f then val ⟨.loadings, t, v, f⟩ * states t f else 0)).sum +
        ((Spec.latents m).map (fun f => if Loads m t v f then val ⟨.loadings, t, v, f⟩ * τ t f else 0)).sum := by
    rw [← list_sum_add]
    refine list_sum_congr (fun f hf => ?_)
    rw [hmv.others ⟨.loadings, t, v, f⟩ (by simp) (by simp) (by simp), hs f hf]
    by_cases h : Measures m t v f ∨ Anchors m v f
    · rw [if_pos h, if_pos h, if_pos (show Loads m t v f from h)]
      ring
    · rw [if_neg h, if_neg h, if_neg (show ¬Loads m t v f from h), add_zero]
  unfold measurementWith
  rw [List.map_cons, List.map_cons, List.sum_cons, List.sum_cons, hctrl, hone, hmv.intercepts t v hup]
  have hload' : ((Spec.latents m).map (fun f => if Measures m t v f ∨ Anchors m v f then val' ⟨.loadings, t, v, f⟩ * states' t f else 0)).sum = _ := hload
  linarith [hload']

/-- Anchored factors do not change. -/
theorem anchoredValue_moved (hmv : MovedLocations custom m τ val val') (hg : GoodNames m) (hc : CleanAnchoring m) (hflag : ¬AnchorFlag m AnchoringSpec.ignoreConstant) {t : ℕ} (ht : IsPeriod m t) {f o : String} (ha : AnchoredIn m f o) (x : ℝ) :
    anchoredValue m val' t f (x + τ t f) = anchoredValue m val t f x := by
  obtain ⟨a1, _, a3⟩ := anchor_some hg.keys ha val t
  obtain ⟨b1, _, b3⟩ := anchor_some hg.keys ha val' t
  unfold anchoredValue
  rw [a1, b1, a3 hflag, b3 hflag, moved_anchor hg hc hmv ht ha, hmv.others _ (by simp) (by simp) (by simp)]
  ring

end

/-- Two datasets with the same simulated measurements. -/
theorem measurements_eq {m : ModelDict ℝ} {val val' : Loc → ℝ} {N n : ℕ} (hN : IsNPeriods m N) {x x' : Nat → Cell m → ℝ} {out out' : SimulatedDataset} (h : DatasetIs m val n x out) (h' : DatasetIs m val' n x' out')
    (he : ∀ i < n, ∀ c, x' i (.inr c) = x i (.inr c)) : out'.measurements.rows = out.measurements.rows := by
  have hl := (h.size N hN).2.2
  have hl' := (h'.size N hN).2.2
  apply List.ext_getElem?
  intro j
  by_cases hj : j < n * N
  · have hN0 : 0 < N := by
      rcases Nat.eq_zero_or_pos N with rfl | h0
      · simp at hj
      · exact h0
    have hi : j / N < n := (Nat.div_lt_iff_lt_mul hN0).mpr hj
    have ht : j % N < N := Nat.mod_lt _ hN0
    obtain ⟨r, hr, r1, r2, r3, r4⟩ := h.measurements N hN _ hi _ ht
    obtain ⟨r', hr', r1', r2', r3', r4'⟩ := h'.measurements N hN _ hi _ ht
    rw [show j = j / N * N + j % N from (Nat.div_add_mod' j N).symm, hr, hr']
    congr 1
    have hcell : r'.cell = r.cell := by
      funext v
      by_cases hv : IsUpdate m (j % N) v
      · rw [r3' ⟨(_, v), hv⟩ rfl, r3 ⟨(_, v), hv⟩ rfl, he _ hi]
      · rw [r4' v hv, r4 v hv]
    cases r
    cases r'
    simp only at hcell r1 r2 r1' r2'
    subst hcell r1 r2 r1' r2'
    rfl
  · rw [List.getElem?_eq_none (by omega), List.getElem?_eq_none (by omega)]

/-- **C148**: move the locations of latent factors, as in C146, and simulate a dataset with the same random numbers and the same policies. Then simulate_dataset returns the same measurements, for all individuals and periods. The latent
factors are moved in each period, and factors that are anchored (with the constants of the anchoring equations) do not change. It holds for all transition functions, mixtures and policies. -/
theorem C148_simulation (root : NormalRoot) {m : ModelDict ℝ} {pm : Processed ℝ} (hpm : processModel m = .ok pm) {k : ℕ} (hm : SimulationModel m k) (custom : String → CustomFn) (nan : ℝ) {τ : Nat → String → ℝ} {val val' : Loc → ℝ}
    (hmv : MovedLocations custom m τ val val') {policies : List Policy} (hv : SimulationValues custom m k val policies)
    (hu' : ∀ t, IsPeriod m (t + 1) → ∀ fs ∈ m.factors, TransFn.Usable (allFactors m) (fun name => val' ⟨.transition, t, fs.1, name⟩) (transFnOf (custom fs.1) fs.2.transition)) {params params' : List (Loc × ℝ)} (hparams : HasParams m params val)
    (hparams' : HasParams m params' val') {nObs : Option Nat} {data : Option (LongData ℝ)} {n : ℕ} {cov : Nat → Covariates} (hi : Individuals m nObs data n cov) (hn : 0 < n) {draws : DatasetDraws} (hd : k ≠ 1 → ∀ i < n, draws.element i < k) :
    ∃ (x x' : Nat → Cell m → ℝ) (out out' : SimulatedDataset), simulateDataset root custom nan m params nObs data policies draws = .ok out ∧ simulateDataset root custom nan m params' nObs data policies draws = .ok out' ∧
      DatasetIs m val n x out ∧ DatasetIs m val' n x' out' ∧ out'.measurements.rows = out.measurements.rows ∧ (∀ i < n, ∀ c, x' i (.inr c) = x i (.inr c)) ∧
      (∀ i < n, ∀ c : {p : Nat × String // IsPeriod m p.1 ∧ p.2 ∈ Spec.latents m}, x' i (.inl c) = x i (.inl c) + τ c.1.1 c.1.2 ∧
        ((∃ o, AnchoredIn m c.1.2 o) → ¬AnchorFlag m AnchoringSpec.ignoreConstant → anchoredValue m val' c.1.1 c.1.2 (x' i (.inl c)) = anchoredValue m val c.1.1 c.1.2 (x i (.inl c)))) := by
  obtain ⟨nT, hT⟩ : ∃ nT, pm.dimensions.nPeriods = nT + 2 := ⟨pm.dimensions.nPeriods - 2, by have := (isPeriod_iff hpm 1).mp hm.periods; omega⟩
  have hg := hm.names
  have h0 : 0 < k := Nat.pos_of_ne_zero hm.elements
  have hw : ∀ e : ℕ, val' ⟨.mixtureWeights, 0, Spec.mixtureName e, "-"⟩ = val ⟨.mixtureWeights, 0, Spec.mixtureName e, "-"⟩ := fun e => hmv.others _ (by simp) (by simp) (by simp)
  have hv' : SimulationValues custom m k val' policies := ⟨fun e he => by rw [hw]; exact hv.positive e he, by simp only [hw]; exact hv.sum, hu', hv.policies⟩
  have he : k ≠ 1 → ∀ i < n, draws.element i = ((if h : draws.element i < k then ⟨draws.element i, h⟩ else ⟨0, h0⟩ : Fin k) : ℕ) := fun h i hil => by rw [dif_pos (hd h i hil)]
  obtain ⟨out, ho, hx⟩ := simulateDataset_cells root hpm hm custom nan hv hparams hi hn hT (draws := draws) (e := fun i => if h : draws.element i < k then ⟨draws.element i, h⟩ else ⟨0, h0⟩) he
  obtain ⟨out', ho', hx'⟩ := simulateDataset_cells root hpm hm custom nan hv' hparams' hi hn hT (draws := draws) (e := fun i => if h : draws.element i < k then ⟨draws.element i, h⟩ else ⟨0, h0⟩) he
  have hper : ∀ t, IsPeriod m t → t < nT + 2 := fun t h => by have := (isPeriod_iff hpm t).mp h; omega
  have hrows : ∀ t, (rowsOf (pm.updateInfo.map (labelRow m val')) t).map (fun r => (r.var, r.sd)) = (rowsOf (pm.updateInfo.map (labelRow m val)) t).map (fun r => (r.var, r.sd)) := by
    intro t
    unfold rowsOf
    rw [List.filter_map, List.filter_map, List.map_map, List.map_map]
    refine List.map_congr_left (fun r _ => ?_)
    show (_, val' _) = (_, val _)
    rw [hmv.others _ (by simp) (by simp) (by simp)]
    rfl
  have hstates : ∀ (i : ℕ) (e : Fin k), ∀ t, IsPeriod m t → ∀ f ∈ Spec.latents m, statesWith custom m val' (cov i) policies
      (fun f => val' ⟨.initialStates, 0, Spec.mixtureName e, f⟩ + wStart m (blockMul (simRoot root (simFixed custom m pm val' n nT cov) (pm.updateInfo.map (labelRow m val')) policies.length ((labelCarry m val' n k).upperChols ⟨0, hn⟩ e)) (fun a => draws.normal i (simDraw a))) f)
      (wShock m (blockMul (simRoot root (simFixed custom m pm val' n nT cov) (pm.updateInfo.map (labelRow m val')) policies.length ((labelCarry m val' n k).upperChols ⟨0, hn⟩ e)) (fun a => draws.normal i (simDraw a))))
      (wPolicy m (blockMul (simRoot root (simFixed custom m pm val' n nT cov) (pm.updateInfo.map (labelRow m val')) policies.length ((labelCarry m val' n k).upperChols ⟨0, hn⟩ e)) (fun a => draws.normal i (simDraw a)))) t f =
      statesWith custom m val (cov i) policies
      (fun f => val ⟨.initialStates, 0, Spec.mixtureName e, f⟩ + wStart m (blockMul (simRoot root (simFixed custom m pm val n nT cov) (pm.updateInfo.map (labelRow m val)) policies.length ((labelCarry m val n k).upperChols ⟨0, hn⟩ e)) (fun a => draws.normal i (simDraw a))) f)
      (wShock m (blockMul (simRoot root (simFixed custom m pm val n nT cov) (pm.updateInfo.map (labelRow m val)) policies.length ((labelCarry m val n k).upperChols ⟨0, hn⟩ e)) (fun a => draws.normal i (simDraw a))))
      (wPolicy m (blockMul (simRoot root (simFixed custom m pm val n nT cov) (pm.updateInfo.map (labelRow m val)) policies.length ((labelCarry m val n k).upperChols ⟨0, hn⟩ e)) (fun a => draws.normal i (simDraw a)))) t f + τ t f := by
    intro i e t ht
    have hU : (labelCarry m val' n k).upperChols ⟨0, hn⟩ e = (labelCarry m val n k).upperChols ⟨0, hn⟩ e := by
      ext a b
      simp only [labelCarry, of_apply]
      split_ifs
      · exact hmv.others _ (by simp) (by simp) (by simp)
      · rfl
    refine statesWith_moved hmv (cov i) policies (fun f hf => ?_) (fun t ht f hf => ?_) (fun t f => ?_) ht
    · rw [wStart_eq root m _ _ _ (draws.normal i), wStart_eq root m _ _ _ (draws.normal i), hU, hmv.means e f ((mem_latents_iff m f).mp hf)]
      ring
    · have h1 : t < nT + 1 := by have := hper _ ht; omega
      rw [wShock_eq root m _ _ _ (draws.normal i) h1, wShock_eq root m _ _ _ (draws.normal i) h1]
      have : (fun f => (simFixed custom m pm val' n nT cov).shockSds (jaxIndex nT t) f ^ 2) = fun f => (simFixed custom m pm val n nT cov).shockSds (jaxIndex nT t) f ^ 2 := by
        funext g
        show val' _ ^ 2 = val _ ^ 2
        rw [hmv.others _ (by simp) (by simp) (by simp)]
      rw [this]
    · rw [policyEffect_congr (p' := fun k => draws.normal i (.policy k)) (fun j hj => wPolicy_eq root m _ _ _ (draws.normal i) hj),
        policyEffect_congr (p := wPolicy m (blockMul (simRoot root (simFixed custom m pm val n nT cov) (pm.updateInfo.map (labelRow m val)) policies.length ((labelCarry m val n k).upperChols ⟨0, hn⟩ e)) (fun a => draws.normal i (simDraw a))))
          (p' := fun k => draws.normal i (.policy k)) (fun j hj => wPolicy_eq root m _ _ _ (draws.normal i) hj)]
  have hmeas : ∀ i < n, ∀ c : {p : Nat × String // IsUpdate m p.1 p.2}, _ = _ := fun i hil c => by
    have hp : IsPeriod m c.1.1 := isUpdate_period c.2
    have herr := (wError_eq root m (simFixed custom m pm val' n nT cov) (pm.updateInfo.map (labelRow m val')) ((labelCarry m val' n k).upperChols ⟨0, hn⟩ (if h : draws.element i < k then ⟨draws.element i, h⟩ else ⟨0, h0⟩)) (draws.normal i) (nPol := policies.length) (hper _ hp) c.1.2).trans
      ((errorOf_congr root (hrows c.1.1) _ c.1.2).trans (wError_eq root m (simFixed custom m pm val n nT cov) (pm.updateInfo.map (labelRow m val)) ((labelCarry m val n k).upperChols ⟨0, hn⟩ (if h : draws.element i < k then ⟨draws.element i, h⟩ else ⟨0, h0⟩)) (draws.normal i) (nPol := policies.length) (hper _ hp) c.1.2).symm)
    exact (congrArg (fun e => measurementWith m val' (cov i) _ e c.1.1 c.1.2) herr).trans (measurementWith_moved hmv hg (individuals_constant hi hil c.1.1 hp) (hstates i (if h : draws.element i < k then ⟨draws.element i, h⟩ else ⟨0, h0⟩) c.1.1 hp) _ c.2)
  refine ⟨_, _, out, out', ho, ho', hx, hx', measurements_eq (isNPeriods_of_ok hpm) hx hx' hmeas, hmeas, fun i hil c => ⟨hstates i _ c.1.1 c.2.1 c.1.2 c.2.2, ?_⟩⟩
  rintro ⟨o, ha⟩ hflag
  refine (congrArg (anchoredValue m val' c.1.1 c.1.2) (hstates i _ c.1.1 c.2.1 c.1.2 c.2.2)).trans ?_
  exact anchoredValue_moved hmv hg hm.anchoring.1 hflag c.2.1 ha _

end Skill
