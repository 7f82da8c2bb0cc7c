import Verif.Props.Edits3
import Verif.Props.SignsSimulation
/- Simulated data of edited models (C117, C118). -/
namespace Skill
open Matrix Spec

/-- Two models with the same latent factors and the same covariance matrices. -/
theorem shockOf_edit (root : NormalRoot) {m m' : ModelDict ℝ} (hl : Spec.latents m' = Spec.latents m) (hn : nLat m' = nLat m) {S : Matrix (Fin (nLat m)) (Fin (nLat m)) ℝ} {S' : Matrix (Fin (nLat m')) (Fin (nLat m')) ℝ}
    (h : ∀ a b (ha : a < nLat m) (hb : b < nLat m) (ha' : a < nLat m') (hb' : b < nLat m'), S' ⟨a, ha'⟩ ⟨b, hb'⟩ = S ⟨a, ha⟩ ⟨b, hb⟩) (z : ℕ → ℝ) (f : String) : shockOf root m' S' z f = shockOf root m S z f := by
  have key : ∀ {k k' : ℕ} (S : Matrix (Fin k) (Fin k) ℝ) (S' : Matrix (Fin k') (Fin k') ℝ) (p : ℕ), k' = k → (∀ a b (ha : a < k) (hb : b < k) (ha' : a < k') (hb' : b < k'), S' ⟨a, ha'⟩ ⟨b, hb'⟩ = S ⟨a, ha⟩ ⟨b, hb⟩) →
      (if h : p < k' then (root k' S' *ᵥ (fun j => z j.val)) ⟨p, h⟩ else 0) = if h : p < k then (root k S *ᵥ (fun j => z j.val)) ⟨p, h⟩ else 0 := by
    intro k k' S S' p hk hS
    subst hk
    obtain rfl : S' = S := by
      ext a b
      exact hS a b a.isLt b.isLt a.isLt b.isLt
    rfl
  unfold shockOf
  rw [hl]
  exact key S S' _ hn h

/-- Measurement errors depend on the names and the standard deviations of the measurements. -/
theorem errorOf_edit (root : NormalRoot) {n nC n' nC' : ℕ} {R : List (UpdateParams n nC)} {R' : List (UpdateParams n' nC')} (h : R'.map (fun r => (r.var, r.sd)) = R.map (fun r => (r.var, r.sd))) (z : ℕ → ℝ) (v : String) :
    errorOf root R' z v = errorOf root R z v := by
  have key : ∀ {k k' : ℕ} (s : Fin k → ℝ) (s' : Fin k' → ℝ) (p : ℕ), k' = k → (∀ j (h : j < k) (h' : j < k'), s' ⟨j, h'⟩ = s ⟨j, h⟩) →
      (if h : p < k' then (root k' (diagonal (fun j => s' j ^ 2)) *ᵥ (fun j => z j.val)) ⟨p, h⟩ else 0) = if h : p < k then (root k (diagonal (fun j => s j ^ 2)) *ᵥ (fun j => z j.val)) ⟨p, h⟩ else 0 := by
    intro k k' s s' p hk hs
    subst hk
    obtain rfl : s' = s := funext (fun j => hs j.val j.isLt j.isLt)
    rfl
  have hl : R'.length = R.length := by simpa using congrArg List.length h
  have hv : R'.map (fun r => r.var) = R.map (fun r => r.var) := by
    have := congrArg (List.map Prod.fst) h
    rwa [List.map_map, List.map_map] at this
  have hs : R'.map (fun r => r.sd) = R.map (fun r => r.sd) := by
    have := congrArg (List.map Prod.snd) h
    rwa [List.map_map, List.map_map] at this
  unfold errorOf
  rw [hv]
  refine key (fun j => (R.get j).sd) (fun j => (R'.get j).sd) _ hl (fun j h1 h2 => ?_)
  have := congrArg (fun l => l[j]?) hs
  simp only [List.getElem?_map, List.getElem?_eq_getElem h1, List.getElem?_eq_getElem h2, Option.map_some, Option.some.injEq] at this
  exact this

/-- Two datasets with the same simulated measurements, from different models. -/
theorem measurements_edit {m m' : ModelDict ℝ} {val val' : Loc → ℝ} {N n : ℕ} (hN : IsNPeriods m N) (hN' : IsNPeriods m' N) (hup : ∀ t v, IsUpdate m' t v ↔ IsUpdate m t v) {x : Nat → Cell m → ℝ} {x' : Nat → Cell m' → ℝ}
    {out out' : SimulatedDataset} (h : DatasetIs m val n x out) (h' : DatasetIs m' val' n x' out') (he : ∀ i < n, ∀ c c', c'.1 = c.1 → x' i (.inr c') = x i (.inr c)) : out'.measurements.rows = out.measurements.rows := by
  have hl := (h.size N hN).2.2
  have hl' := (h'.size N hN').2.2
  apply List.ext_getElem?
  intro j
  by_cases hj : j < n * N
  · have hN0 : 0 < N := by
      rcases Nat.eq_zero_or_pos N with rfl | h0
      · simp at hj
      · exact h0
    have hi : j / N < n := (Nat.div_lt_iff_lt_mul hN0).mpr hj
    have ht : j % N < N := Nat.mod_lt _ hN0
    obtain ⟨r, hr, r1, r2, r3, r4⟩ := h.measurements N hN _ hi _ ht
    obtain ⟨r', hr', r1', r2', r3', r4'⟩ := h'.measurements N hN' _ hi _ ht
    rw [show j = j / N * N + j % N from (Nat.div_add_mod' j N).symm, hr, hr']
    congr 1
    have hcell : r'.cell = r.cell := by
      funext v
      by_cases hv : IsUpdate m (j % N) v
      · rw [r3' ⟨(_, v), (hup _ _).mpr hv⟩ rfl, r3 ⟨(_, v), hv⟩ rfl, he _ hi ⟨(_, v), hv⟩ ⟨(_, v), (hup _ _).mpr hv⟩ rfl]
      · rw [r4' v (fun h => hv ((hup _ _).mp h)), r4 v hv]
    cases r
    cases r'
    simp only at hcell r1 r2 r1' r2'
    subst hcell r1 r2 r1' r2'
    rfl
  · rw [List.getElem?_eq_none (by omega), List.getElem?_eq_none (by omega)]

section
variable {m m' : ModelDict ℝ} (he : EditOf m m')
include he

theorem EditOf.latents_eq : Spec.latents m' = Spec.latents m := he.factors

theorem EditOf.anchor_eq (val : Loc → ℝ) : anchorScale m' val = anchorScale m val ∧ anchorConstant m' val = anchorConstant m val ∧ anchoredValue m' val = anchoredValue m val := by
  have h0 : ∀ f, outcome m' f = outcome m f := fun f => by
    unfold outcome
    rw [he.anchoring]
  have h3 : AnchorFlag m' AnchoringSpec.ignoreConstant ↔ AnchorFlag m AnchoringSpec.ignoreConstant := by
    unfold AnchorFlag
    rw [he.anchoring]
  have h1 : anchorScale m' val = anchorScale m val := by
    funext t f
    unfold anchorScale
    rw [h0]
  have h2 : anchorConstant m' val = anchorConstant m val := by
    funext t f
    unfold anchorConstant
    rw [h0, propext h3]
  refine ⟨h1, h2, ?_⟩
  funext t f y
  unfold anchoredValue
  rw [h1, h2]

theorem EditOf.statesWith_eq (hper : ∀ t, IsPeriod m' t ↔ IsPeriod m t) (custom : String → CustomFn) {val : Loc → ℝ} {cov : Covariates} (hnext : ∀ t, IsPeriod m (t + 1) → ∀ s, ∀ f ∈ Spec.latents m, factorNext custom m' val cov t s f = factorNext custom m val cov t s f)
    {policies : List Policy} {start start' : String → ℝ} {shock shock' : Nat → String → ℝ} {pol pol' : Nat → ℝ} (h1 : ∀ f ∈ Spec.latents m, start' f = start f)
    (h2 : ∀ t, IsPeriod m (t + 1) → ∀ f ∈ Spec.latents m, shock' t f = shock t f) (h4 : ∀ k < policies.length, pol' k = pol k) {t : ℕ} (ht : IsPeriod m t) :
    ∀ f ∈ Spec.latents m, statesWith custom m' val cov policies start' shock' pol' t f = statesWith custom m val cov policies start shock pol t f := by
  have hef : ∀ t f, effectWith m' policies pol' t f = effectWith m policies pol t f := by
    intro t f
    unfold effectWith
    rw [policyEffect_congr h4, propext (hper (t + 1))]
  induction t with
  | zero =>
    intro f hf
    simp only [statesWith, h1 f hf, hef]
  | succ t ih =>
    intro f hf
    have ht' : IsPeriod m t := by
      obtain ⟨N, hN, hlt⟩ := ht
      exact ⟨N, hN, by omega⟩
    simp only [statesWith, hef, h2 t ht f hf]
    rw [hnext t ht _ f hf, factorNext_congr custom m val cov t (ih ht')]

theorem EditOf.measurementWith_eq (hg : GoodNames m) (hmeas : ∀ t v f, Measures m' t v f ↔ Measures m t v f) {val : Loc → ℝ} {t : ℕ} {v : String} (hctrl : ∀ c ∈ m.controls.getD [], c ∉ m'.controls.getD [] → val ⟨.controls, t, v, c⟩ = 0)
    {cov : Covariates} {states states' : Nat → String → ℝ} (hs : ∀ f ∈ Spec.latents m, states' t f = states t f) (error : ℝ) : measurementWith m' val cov states' error t v = measurementWith m val cov states error t v := by
  unfold measurementWith
  have e1 : (("constant" :: m'.controls.getD []).map (fun c => val ⟨.controls, t, v, c⟩ * cov.control t c)).sum = (("constant" :: m.controls.getD []).map (fun c => val ⟨.controls, t, v, c⟩ * cov.control t c)).sum := by
    refine (sum_sublist (he.controls.cons_cons "constant") hg.controls (fun c hc hc' => ?_)).symm
    rcases List.mem_cons.mp hc with rfl | hc
    · exact absurd List.mem_cons_self hc'
    · rw [hctrl c hc (fun h => hc' (List.mem_cons_of_mem _ h)), zero_mul]
  rw [e1, he.latents_eq]
  congr 3
  refine List.map_congr_left (fun f hf => ?_)
  rw [hs f hf, propext (hmeas t v f), propext (he.anchors v f)]

end

theorem EditOf.latName_eq {m m' : ModelDict ℝ} (he : EditOf m m') : latName m' = latName m := by
  funext a
  unfold latName
  rw [he.factors]

theorem EditOf.upperChols_eq {m m' : ModelDict ℝ} (he : EditOf m m') (hnl : nLat m' = nLat m) (val : Loc → ℝ) {n k : ℕ} (i : Fin n) (e : Fin k) : ∀ a b (ha : a < nLat m) (hb : b < nLat m) (ha' : a < nLat m') (hb' : b < nLat m'),
    (((labelCarry m' val n k).upperChols i e)ᵀ * (labelCarry m' val n k).upperChols i e) ⟨a, ha'⟩ ⟨b, hb'⟩ = (((labelCarry m val n k).upperChols i e)ᵀ * (labelCarry m val n k).upperChols i e) ⟨a, ha⟩ ⟨b, hb⟩ := by
  have hname := he.latName_eq
  have key : ∀ {k k' : ℕ} (U : Matrix (Fin k) (Fin k) ℝ) (U' : Matrix (Fin k') (Fin k') ℝ), k' = k → (∀ a b (ha : a < k) (hb : b < k) (ha' : a < k') (hb' : b < k'), U' ⟨a, ha'⟩ ⟨b, hb'⟩ = U ⟨a, ha⟩ ⟨b, hb⟩) →
      ∀ a b (ha : a < k) (hb : b < k) (ha' : a < k') (hb' : b < k'), (U'ᵀ * U') ⟨a, ha'⟩ ⟨b, hb'⟩ = (Uᵀ * U) ⟨a, ha⟩ ⟨b, hb⟩ := by
    intro k k' U U' hk hU
    subst hk
    obtain rfl : U' = U := by
      ext a b
      exact hU a b a.isLt b.isLt a.isLt b.isLt
    intros
    rfl
  refine key _ _ hnl (fun a b ha hb ha' hb' => ?_)
  show (if (⟨a, ha'⟩ : Fin (nLat m')) ≤ ⟨b, hb'⟩ then val ⟨.initialCholcovs, 0, Spec.mixtureName e, latName m' b ++ "-" ++ latName m' a⟩ else 0) =
    if (⟨a, ha⟩ : Fin (nLat m)) ≤ ⟨b, hb⟩ then val ⟨.initialCholcovs, 0, Spec.mixtureName e, latName m b ++ "-" ++ latName m a⟩ else 0
  rw [hname]
  rfl

/-- Simulated data of a model and an edited version of it with the same periods and measurements. -/
theorem edited_simulation (root : NormalRoot) {m m' : ModelDict ℝ} (he : EditOf m m') {pm pm' : Processed ℝ} (hpm : processModel m = .ok pm) (hpm' : processModel m' = .ok pm') (hT' : pm'.dimensions.nPeriods = pm.dimensions.nPeriods)
    (hupd : pm'.updateInfo = pm.updateInfo) (hmeas : ∀ t v f, Measures m' t v f ↔ Measures m t v f) {k : ℕ} (hm : SimulationModel m k) (hm' : SimulationModel m' k) (custom : String → CustomFn) (nan : ℝ) {val : Loc → ℝ}
    (hctrl : ∀ t v, IsUpdate m t v → ∀ c ∈ m.controls.getD [], c ∉ m'.controls.getD [] → val ⟨.controls, t, v, c⟩ = 0) {policies : List Policy} (hv : SimulationValues custom m k val policies) (hv' : SimulationValues custom m' k val policies)
    {params params' : List (Loc × ℝ)} (hparams : HasParams m params val) (hparams' : HasParams m' params' val) {nObs : Option Nat} {data : Option (LongData ℝ)} {n : ℕ} {cov : Nat → Covariates} (hi : Individuals m nObs data n cov)
    (hi' : Individuals m' nObs data n cov) (hn : 0 < n) (hnext : ∀ i < n, ∀ t, IsPeriod m (t + 1) → ∀ s, ∀ f ∈ Spec.latents m, factorNext custom m' val (cov i) t s f = factorNext custom m val (cov i) t s f) {draws : DatasetDraws}
    (hd : k ≠ 1 → ∀ i < n, draws.element i < k) :
    ∃ (x : Nat → Cell m → ℝ) (x' : Nat → Cell m' → ℝ) (out out' : SimulatedDataset), simulateDataset root custom nan m params nObs data policies draws = .ok out ∧ simulateDataset root custom nan m' params' nObs data policies draws = .ok out' ∧
      DatasetIs m val n x out ∧ DatasetIs m' val n x' out' ∧ out'.measurements.rows = out.measurements.rows ∧ (∀ i < n, ∀ c c', c'.1 = c.1 → x' i (.inl c') = x i (.inl c)) ∧ (∀ i < n, ∀ c c', c'.1 = c.1 → x' i (.inr c') = x i (.inr c)) := by
  obtain ⟨nT, hT⟩ : ∃ nT, pm.dimensions.nPeriods = nT + 2 := ⟨pm.dimensions.nPeriods - 2, by have := (isPeriod_iff hpm 1).mp hm.periods; omega⟩
  have hg := hm.names
  have h0 : 0 < k := Nat.pos_of_ne_zero hm.elements
  have hel : k ≠ 1 → ∀ i < n, draws.element i = ((if h : draws.element i < k then ⟨draws.element i, h⟩ else ⟨0, h0⟩ : Fin k) : ℕ) := fun h i hil => by rw [dif_pos (hd h i hil)]
  obtain ⟨out, ho, hx⟩ := simulateDataset_cells root hpm hm custom nan hv hparams hi hn hT (draws := draws) (e := fun i => if h : draws.element i < k then ⟨draws.element i, h⟩ else ⟨0, h0⟩) hel
  obtain ⟨out', ho', hx'⟩ := simulateDataset_cells root hpm' hm' custom nan hv' hparams' hi' hn (hT'.trans hT) (draws := draws) (e := fun i => if h : draws.element i < k then ⟨draws.element i, h⟩ else ⟨0, h0⟩) hel
  have hper0 : ∀ t, IsPeriod m t → t < nT + 2 := fun t h => by have := (isPeriod_iff hpm t).mp h; omega
  have hper : ∀ t, IsPeriod m' t ↔ IsPeriod m t := fun t => by rw [isPeriod_iff hpm, isPeriod_iff hpm', hT']
  have hup : ∀ t v, IsUpdate m' t v ↔ IsUpdate m t v := fun t v => by rw [← (C01_update_info_exact hpm').2.1, ← (C01_update_info_exact hpm).2.1, hupd]
  have hnl : nLat m' = nLat m := by simpa [nLat] using congrArg List.length he.factors
  have hrows : ∀ t, (rowsOf (pm'.updateInfo.map (labelRow m' val)) t).map (fun r => (r.var, r.sd)) = (rowsOf (pm.updateInfo.map (labelRow m val)) t).map (fun r => (r.var, r.sd)) := by
    intro t
    unfold rowsOf
    rw [hupd, List.filter_map, List.filter_map, List.map_map, List.map_map]
    rfl
  have hstates : ∀ i < n, ∀ (e : Fin k), ∀ t, IsPeriod m t → ∀ f ∈ Spec.latents m, statesWith custom m' val (cov i) policies
      (fun f => val ⟨.initialStates, 0, Spec.mixtureName e, f⟩ + wStart m' (blockMul (simRoot root (simFixed custom m' pm' val n nT cov) (pm'.updateInfo.map (labelRow m' val)) policies.length ((labelCarry m' val n k).upperChols ⟨0, hn⟩ e)) (fun a => draws.normal i (simDraw a))) f)
      (wShock m' (blockMul (simRoot root (simFixed custom m' pm' val n nT cov) (pm'.updateInfo.map (labelRow m' val)) policies.length ((labelCarry m' val n k).upperChols ⟨0, hn⟩ e)) (fun a => draws.normal i (simDraw a))))
      (wPolicy m' (blockMul (simRoot root (simFixed custom m' pm' val n nT cov) (pm'.updateInfo.map (labelRow m' val)) policies.length ((labelCarry m' val n k).upperChols ⟨0, hn⟩ e)) (fun a => draws.normal i (simDraw a)))) t f =
      statesWith custom m val (cov i) policies
      (fun f => val ⟨.initialStates, 0, Spec.mixtureName e, f⟩ + wStart m (blockMul (simRoot root (simFixed custom m pm val n nT cov) (pm.updateInfo.map (labelRow m val)) policies.length ((labelCarry m val n k).upperChols ⟨0, hn⟩ e)) (fun a => draws.normal i (simDraw a))) f)
      (wShock m (blockMul (simRoot root (simFixed custom m pm val n nT cov) (pm.updateInfo.map (labelRow m val)) policies.length ((labelCarry m val n k).upperChols ⟨0, hn⟩ e)) (fun a => draws.normal i (simDraw a))))
      (wPolicy m (blockMul (simRoot root (simFixed custom m pm val n nT cov) (pm.updateInfo.map (labelRow m val)) policies.length ((labelCarry m val n k).upperChols ⟨0, hn⟩ e)) (fun a => draws.normal i (simDraw a)))) t f := by
    intro i hil e t ht
    refine he.statesWith_eq hper custom (hnext i hil) (fun f _ => ?_) (fun t ht f _ => ?_) (fun j hj => ?_) ht
    · rw [wStart_eq root m' _ _ _ (draws.normal i), wStart_eq root m _ _ _ (draws.normal i), shockOf_edit root he.latents_eq hnl (he.upperChols_eq hnl val ⟨0, hn⟩ e)]
    · have h1 : t < nT + 1 := by have := hper0 _ ht; omega
      rw [wShock_eq root m' _ _ _ (draws.normal i) h1, wShock_eq root m _ _ _ (draws.normal i) h1]
      refine shockOf_edit root he.latents_eq hnl (fun a b ha hb ha' hb' => ?_) _ _
      have hname := he.latName_eq
      by_cases hab : a = b
      · subst hab
        rw [diagonal_apply_eq, diagonal_apply_eq]
        show val ⟨.shockSds, _, latName m' a, "-"⟩ ^ 2 = val ⟨.shockSds, _, latName m a, "-"⟩ ^ 2
        rw [hname]
      · rw [diagonal_apply_ne _ (by simpa using hab), diagonal_apply_ne _ (by simpa using hab)]
    · rw [wPolicy_eq root m' _ _ _ (draws.normal i) hj, wPolicy_eq root m _ _ _ (draws.normal i) hj]
  have hmeasure0 : ∀ i < n, ∀ t v (hc : IsUpdate m t v) (hc' : IsUpdate m' t v), noiseCells custom m' val (cov i) policies (if h : draws.element i < k then ⟨draws.element i, h⟩ else ⟨0, h0⟩ : Fin k) (blockMul (simRoot root (simFixed custom m' pm' val n nT cov) (pm'.updateInfo.map (labelRow m' val)) policies.length ((labelCarry m' val n k).upperChols ⟨0, hn⟩ (if h : draws.element i < k then ⟨draws.element i, h⟩ else ⟨0, h0⟩ : Fin k))) (fun a => draws.normal i (simDraw a))) (.inr ⟨(t, v), hc'⟩) =
      noiseCells custom m val (cov i) policies (if h : draws.element i < k then ⟨draws.element i, h⟩ else ⟨0, h0⟩ : Fin k) (blockMul (simRoot root (simFixed custom m pm val n nT cov) (pm.updateInfo.map (labelRow m val)) policies.length ((labelCarry m val n k).upperChols ⟨0, hn⟩ (if h : draws.element i < k then ⟨draws.element i, h⟩ else ⟨0, h0⟩ : Fin k))) (fun a => draws.normal i (simDraw a))) (.inr ⟨(t, v), hc⟩) := fun i hil t v hc hc' => by
    have hp : IsPeriod m t := isUpdate_period hc
    have herr := (wError_eq root m' (simFixed custom m' pm' val n nT cov) (pm'.updateInfo.map (labelRow m' val)) ((labelCarry m' val n k).upperChols ⟨0, hn⟩ (if h : draws.element i < k then ⟨draws.element i, h⟩ else ⟨0, h0⟩)) (draws.normal i) (nPol := policies.length) (hper0 _ hp) v).trans
      ((errorOf_edit root (hrows t) _ v).trans (wError_eq root m (simFixed custom m pm val n nT cov) (pm.updateInfo.map (labelRow m val)) ((labelCarry m val n k).upperChols ⟨0, hn⟩ (if h : draws.element i < k then ⟨draws.element i, h⟩ else ⟨0, h0⟩)) (draws.normal i) (nPol := policies.length) (hper0 _ hp) v).symm)
    exact (congrArg (fun e => measurementWith m' val (cov i) _ e t v) herr).trans (he.measurementWith_eq hg hmeas (hctrl t v hc) (hstates i hil (if h : draws.element i < k then ⟨draws.element i, h⟩ else ⟨0, h0⟩) t hp) _)
  have hN := isNPeriods_of_ok hpm
  have hN' := isNPeriods_of_ok hpm'
  rw [hT'] at hN'
  have hM : ∀ i < n, ∀ (c : {p : Nat × String // IsUpdate m p.1 p.2}) (c' : {p : Nat × String // IsUpdate m' p.1 p.2}), c'.1 = c.1 → ((fun i => noiseCells custom m' val (cov i) policies (if h : draws.element i < k then ⟨draws.element i, h⟩ else ⟨0, h0⟩ : Fin k) (blockMul (simRoot root (simFixed custom m' pm' val n nT cov) (pm'.updateInfo.map (labelRow m' val)) policies.length ((labelCarry m' val n k).upperChols ⟨0, hn⟩ (if h : draws.element i < k then ⟨draws.element i, h⟩ else ⟨0, h0⟩ : Fin k))) (fun a => draws.normal i (simDraw a)))) : Nat → Cell m' → ℝ) i (.inr c') = ((fun i => noiseCells custom m val (cov i) policies (if h : draws.element i < k then ⟨draws.element i, h⟩ else ⟨0, h0⟩ : Fin k) (blockMul (simRoot root (simFixed custom m pm val n nT cov) (pm.updateInfo.map (labelRow m val)) policies.length ((labelCarry m val n k).upperChols ⟨0, hn⟩ (if h : draws.element i < k then ⟨draws.element i, h⟩ else ⟨0, h0⟩ : Fin k))) (fun a => draws.normal i (simDraw a)))) : Nat → Cell m → ℝ) i (.inr c) := by
    rintro i hil ⟨⟨t, v⟩, hc⟩ ⟨p', hc'⟩ rfl
    exact hmeasure0 i hil t v hc hc'
  refine ⟨_, _, out, out', ho, ho', hx, hx', measurements_edit hN hN' hup hx hx' hM, ?_, hM⟩
  rintro i hil ⟨⟨t, f⟩, hc⟩ ⟨p', hc'⟩ rfl
  exact hstates i hil _ t hc.1 f hc.2

end Skill
