import Verif.Props.Signs
import Verif.Props.MovedSimulation
/- C140: simulated data do not depend on the signs of standard deviations and of columns of Cholesky factors. -/
namespace Skill
open Matrix Spec

/-- Measurement errors depend on the names and the squared standard deviations of the measurements. -/
theorem errorOf_squares (root : NormalRoot) {n nC : ℕ} {R R' : List (UpdateParams n nC)} (h : R.map (fun r => (r.var, r.sd ^ 2)) = R'.map (fun r => (r.var, r.sd ^ 2))) (z : ℕ → ℝ) (v : String) : errorOf root R z v = errorOf root R' z v := by
  have key : ∀ {k k' : ℕ} (s : Fin k → ℝ) (s' : Fin k' → ℝ) (p : ℕ), k = k' → (∀ j (h : j < k) (h' : j < k'), s ⟨j, h⟩ = s' ⟨j, h'⟩) →
      (if h : p < k then (root k (diagonal s) *ᵥ (fun j => z j.val)) ⟨p, h⟩ else 0) = if h : p < k' then (root k' (diagonal s') *ᵥ (fun j => z j.val)) ⟨p, h⟩ else 0 := by
    intro k k' s s' p hk hs
    subst hk
    obtain rfl : s = s' := funext (fun j => hs j.val j.isLt j.isLt)
    rfl
  have hl : R.length = R'.length := by simpa using congrArg List.length h
  have hv : R.map (fun r => r.var) = R'.map (fun r => r.var) := by
    have := congrArg (List.map Prod.fst) h
    rwa [List.map_map, List.map_map] at this
  have hs : R.map (fun r => r.sd ^ 2) = R'.map (fun r => r.sd ^ 2) := by
    have := congrArg (List.map Prod.snd) h
    rwa [List.map_map, List.map_map] at this
  unfold errorOf
  rw [hv]
  refine key (fun j => (R.get j).sd ^ 2) (fun j => (R'.get j).sd ^ 2) _ hl (fun j h1 h2 => ?_)
  have := congrArg (fun l => l[j]?) hs
  simp only [List.getElem?_map, List.getElem?_eq_getElem h1, List.getElem?_eq_getElem h2, Option.map_some, Option.some.injEq] at this
  exact this

section
variable {m : ModelDict ℝ} {val val' : Loc → ℝ} (hs : ∀ l, l.cat = .loadings ∨ l.cat = .controls ∨ l.cat = .transition → val' l = val l)
include hs

theorem anchoredValue_values : anchorScale m val' = anchorScale m val ∧ anchorConstant m val' = anchorConstant m val := by
  constructor
  · funext t f
    unfold anchorScale
    split
    · exact hs _ (by simp)
    · rfl
  · funext t f
    unfold anchorConstant
    split
    · split_ifs
      · rfl
      · exact hs _ (by simp)
    · rfl

theorem factorNext_values (custom : String → CustomFn) : factorNext custom m val' = factorNext custom m val := by
  obtain ⟨h1, h2⟩ := anchoredValue_values hs
  funext cov t s f
  have ht : (fun name => val' ⟨.transition, t, f, name⟩) = fun name => val ⟨.transition, t, f, name⟩ := funext fun name => hs _ (by simp)
  unfold factorNext anchoredValue
  rw [h1, h2, ht]

theorem cellsWith_values (custom : String → CustomFn) (cov : Covariates) (policies : List Policy) (start : String → ℝ) (shock error : Nat → String → ℝ) (pol : Nat → ℝ) :
    cellsWith custom m val' cov policies start shock error pol = cellsWith custom m val cov policies start shock error pol := by
  have hst : statesWith custom m val' cov policies start shock pol = statesWith custom m val cov policies start shock pol := by
    funext t
    induction t with
    | zero => rfl
    | succ t ih => rw [statesWith, statesWith, ih, factorNext_values hs]
  have hl : ∀ t v f, val' ⟨.loadings, t, v, f⟩ = val ⟨.loadings, t, v, f⟩ := fun _ _ _ => hs _ (by simp)
  have hc : ∀ t v f, val' ⟨.controls, t, v, f⟩ = val ⟨.controls, t, v, f⟩ := fun _ _ _ => hs _ (by simp)
  funext c
  rcases c with c | c
  · simp only [cellsWith, hst]
  · simp only [cellsWith, hst, measurementWith, hl, hc]

end

section
variable {m : ModelDict ℝ} {k : ℕ} {val val' : Loc → ℝ} (hs : SameUpToSigns m k val val')
include hs

theorem values_signs : ∀ l, l.cat = .loadings ∨ l.cat = .controls ∨ l.cat = .transition → val' l = val l := by
  rintro l (h | h | h)
  all_goals exact hs.others l (by rw [h]; simp) (by rw [h]; simp) (by rw [h]; simp)

theorem upperChols_signs {n : ℕ} (i : Fin n) (e : Fin k) : ((labelCarry m val' n k).upperChols i e)ᵀ * (labelCarry m val' n k).upperChols i e = ((labelCarry m val n k).upperChols i e)ᵀ * (labelCarry m val n k).upperChols i e := by
  have hlat : ∀ f : Fin (nLat m), IsLatent m (latName m f) := fun f => by
    obtain ⟨spec, h⟩ := latName_spec m f
    exact ⟨spec, h⟩
  ext a b
  rw [mul_apply, mul_apply]
  refine Finset.sum_congr rfl (fun j _ => ?_)
  obtain ⟨s, h1, h2⟩ := hs.chols e e.2 (latName m j) (hlat j)
  have hsq : s * s = 1 := by rcases h1 with rfl | rfl <;> norm_num
  have hrow : ∀ a, (labelCarry m val' n k).upperChols i e j a = s * (labelCarry m val n k).upperChols i e j a := fun a => by
    show (if j ≤ a then val' ⟨.initialCholcovs, 0, Spec.mixtureName e, latName m a ++ "-" ++ latName m j⟩ else 0) = s * (if j ≤ a then val ⟨.initialCholcovs, 0, Spec.mixtureName e, latName m a ++ "-" ++ latName m j⟩ else 0)
    split_ifs
    · exact h2 _ (hlat a)
    · rw [mul_zero]
  rw [transpose_apply, transpose_apply, hrow, hrow, mul_mul_mul_comm, hsq, one_mul]

end

/-- **C140**: change the signs of standard deviations and of columns of the Cholesky factors, and simulate a dataset with the same random numbers and the same policies. Then simulate_dataset returns the same dataset: the same latent factors,
anchored latent factors and measurements (`x`) for all individuals and periods. It holds for all transition functions, mixtures and policies. -/
theorem C140_simulation (root : NormalRoot) {m : ModelDict ℝ} {pm : Processed ℝ} (hpm : processModel m = .ok pm) {k : ℕ} (hm : SimulationModel m k) (custom : String → CustomFn) (nan : ℝ) {val val' : Loc → ℝ}
    (hs : SameUpToSigns m k val val') {policies : List Policy} (hv : SimulationValues custom m k val policies) {params params' : List (Loc × ℝ)} (hparams : HasParams m params val)
    (hparams' : HasParams m params' val') {nObs : Option Nat} {data : Option (LongData ℝ)} {n : ℕ} {cov : Nat → Covariates} (hi : Individuals m nObs data n cov) (hn : 0 < n) {draws : DatasetDraws} (hd : k ≠ 1 → ∀ i < n, draws.element i < k) :
    ∃ (x : Nat → Cell m → ℝ) (out out' : SimulatedDataset), simulateDataset root custom nan m params nObs data policies draws = .ok out ∧ simulateDataset root custom nan m params' nObs data policies draws = .ok out' ∧
      DatasetIs m val n x out ∧ DatasetIs m val n x out' ∧ out'.measurements.rows = out.measurements.rows := by
  obtain ⟨nT, hT⟩ : ∃ nT, pm.dimensions.nPeriods = nT + 2 := ⟨pm.dimensions.nPeriods - 2, by have := (isPeriod_iff hpm 1).mp hm.periods; omega⟩
  have h0 : 0 < k := Nat.pos_of_ne_zero hm.elements
  have hw : ∀ e : ℕ, val' ⟨.mixtureWeights, 0, Spec.mixtureName e, "-"⟩ = val ⟨.mixtureWeights, 0, Spec.mixtureName e, "-"⟩ := fun e => hs.others _ (by simp) (by simp) (by simp)
  have htr : ∀ t f, (fun name => val' ⟨.transition, t, f, name⟩) = fun name => val ⟨.transition, t, f, name⟩ := fun t f => funext fun name => hs.others _ (by simp) (by simp) (by simp)
  have hv' : SimulationValues custom m k val' policies := ⟨fun e he => by rw [hw]; exact hv.positive e he, by simp only [hw]; exact hv.sum, fun t ht fs hfs => by rw [htr]; exact hv.usable t ht fs hfs, hv.policies⟩
  have he : k ≠ 1 → ∀ i < n, draws.element i = ((if h : draws.element i < k then ⟨draws.element i, h⟩ else ⟨0, h0⟩ : Fin k) : ℕ) := fun h i hil => by rw [dif_pos (hd h i hil)]
  obtain ⟨out, ho, hx⟩ := simulateDataset_cells root hpm hm custom nan hv hparams hi hn hT (draws := draws) (e := fun i => if h : draws.element i < k then ⟨draws.element i, h⟩ else ⟨0, h0⟩) he
  obtain ⟨out', ho', hx'⟩ := simulateDataset_cells root hpm hm custom nan hv' hparams' hi hn hT (draws := draws) (e := fun i => if h : draws.element i < k then ⟨draws.element i, h⟩ else ⟨0, h0⟩) he
  have hper : ∀ t, IsPeriod m t → t < nT + 2 := fun t h => by have := (isPeriod_iff hpm t).mp h; omega
  have hrows : ∀ t, (rowsOf (pm.updateInfo.map (labelRow m val')) t).map (fun r => (r.var, r.sd ^ 2)) = (rowsOf (pm.updateInfo.map (labelRow m val)) t).map (fun r => (r.var, r.sd ^ 2)) := by
    intro t
    unfold rowsOf
    rw [List.filter_map, List.filter_map, List.map_map, List.map_map]
    refine List.map_congr_left (fun r _ => ?_)
    show (_, val' _ ^ 2) = (_, val _ ^ 2)
    rw [← sq_abs (val' _), hs.measSds _ rfl, sq_abs]
    rfl
  have hcells : ∀ i, noiseCells custom m val' (cov i) policies (if h : draws.element i < k then ⟨draws.element i, h⟩ else ⟨0, h0⟩ : Fin k)
        (blockMul (simRoot root (simFixed custom m pm val' n nT cov) (pm.updateInfo.map (labelRow m val')) policies.length ((labelCarry m val' n k).upperChols ⟨0, hn⟩ (if h : draws.element i < k then ⟨draws.element i, h⟩ else ⟨0, h0⟩))) (fun a => draws.normal i (simDraw a))) =
      noiseCells custom m val (cov i) policies (if h : draws.element i < k then ⟨draws.element i, h⟩ else ⟨0, h0⟩ : Fin k)
        (blockMul (simRoot root (simFixed custom m pm val n nT cov) (pm.updateInfo.map (labelRow m val)) policies.length ((labelCarry m val n k).upperChols ⟨0, hn⟩ (if h : draws.element i < k then ⟨draws.element i, h⟩ else ⟨0, h0⟩))) (fun a => draws.normal i (simDraw a))) := by
    intro i
    unfold noiseCells
    rw [cellsWith_values (values_signs hs)]
    refine cellsWith_congr custom val (cov i) (fun t v h => isUpdate_period h) (fun f _ => ?_) (fun t ht f _ => ?_) (fun t v h => ?_) (fun j hj => ?_)
    · rw [wStart_eq root m _ _ _ (draws.normal i), wStart_eq root m _ _ _ (draws.normal i), upperChols_signs hs, hs.others _ (by simp) (by simp) (by simp)]
    · have h1 : t < nT + 1 := by have := hper _ ht; omega
      rw [wShock_eq root m _ _ _ (draws.normal i) h1, wShock_eq root m _ _ _ (draws.normal i) h1]
      have : (fun f => (simFixed custom m pm val' n nT cov).shockSds (jaxIndex nT t) f ^ 2) = fun f => (simFixed custom m pm val n nT cov).shockSds (jaxIndex nT t) f ^ 2 := by
        funext g
        show val' _ ^ 2 = val _ ^ 2
        rw [← sq_abs (val' _), hs.shockSds _ rfl, sq_abs]
      rw [this]
    · have h2 : t < nT + 2 := hper _ (isUpdate_period h)
      rw [wError_eq root m _ _ _ (draws.normal i) h2, wError_eq root m _ _ _ (draws.normal i) h2]
      exact errorOf_squares root (hrows t) _ v
    · rw [wPolicy_eq root m _ _ _ (draws.normal i) hj, wPolicy_eq root m _ _ _ (draws.normal i) hj]
  rw [show (fun i => noiseCells custom m val' (cov i) policies (if h : draws.element i < k then ⟨draws.element i, h⟩ else ⟨0, h0⟩ : Fin k) _) = _ from funext hcells] at hx'
  refine ⟨_, out, out', ho, ho', hx, ⟨hx'.size, hx'.columns, hx'.unanchored, ?_, hx'.measurements, hx'.ranges⟩, measurements_eq (isNPeriods_of_ok hpm) hx hx' (fun _ _ _ => rfl)⟩
  have ha : anchoredValue m val = anchoredValue m val' := by
    obtain ⟨h1, h2⟩ := anchoredValue_values (values_signs hs)
    funext t f y
    unfold anchoredValue
    rw [h1, h2]
  rw [ha]
  exact hx'.anchored

end Skill
