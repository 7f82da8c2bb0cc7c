import Verif.Spec.TotalEffects
import Verif.Props.SignsSimulation
/- C150: only the total effects of deterministic policies matter. -/
namespace Skill
open Matrix Spec

theorem policyEffect_deterministic {policies : List Policy} (h : ∀ p ∈ policies, p.standardDeviation = 0) (pol : Nat → ℝ) (t : Nat) (f : String) : policyEffect policies pol t f = effectSizes policies t f := by
  unfold policyEffect effectSizes
  congr 1
  have e : (policies.zipIdx.filter (fun p => decide (p.1.period = t ∧ p.1.factor = f))).map (fun p => p.1.effectSize + p.1.standardDeviation * pol p.2) =
      (policies.zipIdx.filter (fun p => decide (p.1.period = t ∧ p.1.factor = f))).map (fun p => p.1.effectSize) := by
    refine List.map_congr_left (fun p hp => ?_)
    obtain ⟨q, j⟩ := p
    rw [h q (List.fst_mem_of_mem_zipIdx (List.mem_of_mem_filter hp)), zero_mul, add_zero]
  rw [e]
  have e2 : policies = policies.zipIdx.map Prod.fst := by simp
  conv_rhs => rw [e2, List.filter_map, List.map_map]
  rfl

theorem statesWith_policies {m : ModelDict ℝ} (custom : String → CustomFn) (val : Loc → ℝ) (cov : Covariates) {policies policies' : List Policy} {start start' : String → ℝ} {shock shock' : Nat → String → ℝ} {pol pol' : Nat → ℝ}
    (hef : ∀ t, ∀ f ∈ Spec.latents m, effectWith m policies' pol' t f = effectWith m policies pol t f) (h1 : ∀ f ∈ Spec.latents m, start' f = start f)
    (h2 : ∀ t, IsPeriod m (t + 1) → ∀ f ∈ Spec.latents m, shock' t f = shock t f) {t : ℕ} (ht : IsPeriod m t) :
    ∀ f ∈ Spec.latents m, statesWith custom m val cov policies' start' shock' pol' t f = statesWith custom m val cov policies start shock pol t f := by
  induction t with
  | zero =>
    intro f hf
    simp only [statesWith, h1 f hf, hef 0 f hf]
  | succ t ih =>
    intro f hf
    have ht' : IsPeriod m t := by
      obtain ⟨N, hN, hlt⟩ := ht
      exact ⟨N, hN, by omega⟩
    simp only [statesWith, hef (t + 1) f hf, h2 t ht f hf]
    rw [factorNext_congr custom m val cov t (ih ht')]

theorem measurementWith_states {m : ModelDict ℝ} {t : ℕ} {val : Loc → ℝ} {v : String} {cov : Covariates} {states states' : Nat → String → ℝ} (hs : ∀ f ∈ Spec.latents m, states' t f = states t f) (error : ℝ) :
    measurementWith m val cov states' error t v = measurementWith m val cov states error t v := by
  unfold measurementWith
  congr 3
  exact List.map_congr_left (fun f hf => by rw [hs f hf])

/-- **C150**: two lists of policies without randomness (standard deviation zero) that have the same total effect on each factor in each period except the last one. simulate_dataset returns the same dataset if all other random numbers are the same:
the order of policies does not matter, effects of several policies add up, policies with effect zero and policies in the last period do not matter. -/
theorem C150_policies_add_up (root : NormalRoot) {m : ModelDict ℝ} {pm : Processed ℝ} (hpm : processModel m = .ok pm) {k : ℕ} (hm : SimulationModel m k) (custom : String → CustomFn) (nan : ℝ) {val : Loc → ℝ} {policies policies' : List Policy}
    (hv : SimulationValues custom m k val policies) (hv' : SimulationValues custom m k val policies') (hdet : ∀ p ∈ policies, p.standardDeviation = 0) (hdet' : ∀ p ∈ policies', p.standardDeviation = 0)
    (htotal : ∀ t f, IsPeriod m (t + 1) → IsLatent m f → effectSizes policies' t f = effectSizes policies t f) {params : List (Loc × ℝ)} (hparams : HasParams m params val)
    {nObs : Option Nat} {data : Option (LongData ℝ)} {n : ℕ} {cov : Nat → Covariates} (hi : Individuals m nObs data n cov) (hn : 0 < n) {draws draws' : DatasetDraws} (hd : k ≠ 1 → ∀ i < n, draws.element i < k)
    (hsame : SameDrawsExceptPolicies draws draws') :
    ∃ (x : Nat → Cell m → ℝ) (out out' : SimulatedDataset), simulateDataset root custom nan m params nObs data policies draws = .ok out ∧ simulateDataset root custom nan m params nObs data policies' draws' = .ok out' ∧
      DatasetIs m val n x out ∧ DatasetIs m val n x out' ∧ out'.measurements.rows = out.measurements.rows := by
  obtain ⟨nT, hT⟩ : ∃ nT, pm.dimensions.nPeriods = nT + 2 := ⟨pm.dimensions.nPeriods - 2, by have := (isPeriod_iff hpm 1).mp hm.periods; omega⟩
  have h0 : 0 < k := Nat.pos_of_ne_zero hm.elements
  have he : k ≠ 1 → ∀ i < n, draws.element i = (((if h : draws.element i < k then ⟨draws.element i, h⟩ else ⟨0, h0⟩) : Fin k) : ℕ) := fun h i hil => by rw [dif_pos (hd h i hil)]
  have he' : k ≠ 1 → ∀ i < n, draws'.element i = (((if h : draws.element i < k then ⟨draws.element i, h⟩ else ⟨0, h0⟩) : Fin k) : ℕ) := fun h i hil => by rw [dif_pos (hd h i hil), hsame.element]
  obtain ⟨out, ho, hx⟩ := simulateDataset_cells root hpm hm custom nan hv hparams hi hn hT (draws := draws) (e := fun i => (if h : draws.element i < k then ⟨draws.element i, h⟩ else ⟨0, h0⟩)) he
  obtain ⟨out', ho', hx'⟩ := simulateDataset_cells root hpm hm custom nan hv' hparams hi hn hT (draws := draws') (e := fun i => (if h : draws.element i < k then ⟨draws.element i, h⟩ else ⟨0, h0⟩)) he'
  have hper : ∀ t, IsPeriod m t → t < nT + 2 := fun t h => by have := (isPeriod_iff hpm t).mp h; omega
  have hcells : ∀ i, noiseCells custom m val (cov i) policies' ((if h : draws.element i < k then ⟨draws.element i, h⟩ else ⟨0, h0⟩) : Fin k) (blockMul (simRoot root (simFixed custom m pm val n nT cov) (pm.updateInfo.map (labelRow m val)) policies'.length ((labelCarry m val n k).upperChols ⟨0, hn⟩ (if h : draws.element i < k then ⟨draws.element i, h⟩ else ⟨0, h0⟩))) (fun a => draws'.normal i (simDraw a))) = noiseCells custom m val (cov i) policies ((if h : draws.element i < k then ⟨draws.element i, h⟩ else ⟨0, h0⟩) : Fin k) (blockMul (simRoot root (simFixed custom m pm val n nT cov) (pm.updateInfo.map (labelRow m val)) policies.length ((labelCarry m val n k).upperChols ⟨0, hn⟩ (if h : draws.element i < k then ⟨draws.element i, h⟩ else ⟨0, h0⟩))) (fun a => draws.normal i (simDraw a))) := by
    intro i
    have hst : ∀ t, IsPeriod m t → ∀ f ∈ Spec.latents m, statesWith custom m val (cov i) policies' (fun f => val ⟨.initialStates, 0, Spec.mixtureName ((if h : draws.element i < k then ⟨draws.element i, h⟩ else ⟨0, h0⟩) : Fin k), f⟩ + wStart m (blockMul (simRoot root (simFixed custom m pm val n nT cov) (pm.updateInfo.map (labelRow m val)) policies'.length ((labelCarry m val n k).upperChols ⟨0, hn⟩ (if h : draws.element i < k then ⟨draws.element i, h⟩ else ⟨0, h0⟩))) (fun a => draws'.normal i (simDraw a))) f) (wShock m (blockMul (simRoot root (simFixed custom m pm val n nT cov) (pm.updateInfo.map (labelRow m val)) policies'.length ((labelCarry m val n k).upperChols ⟨0, hn⟩ (if h : draws.element i < k then ⟨draws.element i, h⟩ else ⟨0, h0⟩))) (fun a => draws'.normal i (simDraw a)))) (wPolicy m (blockMul (simRoot root (simFixed custom m pm val n nT cov) (pm.updateInfo.map (labelRow m val)) policies'.length ((labelCarry m val n k).upperChols ⟨0, hn⟩ (if h : draws.element i < k then ⟨draws.element i, h⟩ else ⟨0, h0⟩))) (fun a => draws'.normal i (simDraw a)))) t f =
        statesWith custom m val (cov i) policies (fun f => val ⟨.initialStates, 0, Spec.mixtureName ((if h : draws.element i < k then ⟨draws.element i, h⟩ else ⟨0, h0⟩) : Fin k), f⟩ + wStart m (blockMul (simRoot root (simFixed custom m pm val n nT cov) (pm.updateInfo.map (labelRow m val)) policies.length ((labelCarry m val n k).upperChols ⟨0, hn⟩ (if h : draws.element i < k then ⟨draws.element i, h⟩ else ⟨0, h0⟩))) (fun a => draws.normal i (simDraw a))) f) (wShock m (blockMul (simRoot root (simFixed custom m pm val n nT cov) (pm.updateInfo.map (labelRow m val)) policies.length ((labelCarry m val n k).upperChols ⟨0, hn⟩ (if h : draws.element i < k then ⟨draws.element i, h⟩ else ⟨0, h0⟩))) (fun a => draws.normal i (simDraw a)))) (wPolicy m (blockMul (simRoot root (simFixed custom m pm val n nT cov) (pm.updateInfo.map (labelRow m val)) policies.length ((labelCarry m val n k).upperChols ⟨0, hn⟩ (if h : draws.element i < k then ⟨draws.element i, h⟩ else ⟨0, h0⟩))) (fun a => draws.normal i (simDraw a)))) t f := by
      intro t ht
      refine statesWith_policies custom val (cov i) (fun t f hf => ?_) (fun f _ => ?_) (fun t ht f _ => ?_) ht
      · unfold effectWith
        by_cases hp : IsPeriod m (t + 1)
        · rw [if_pos hp, if_pos hp, policyEffect_deterministic hdet, policyEffect_deterministic hdet', htotal t f hp ((mem_latents_iff _ _).mp hf)]
        · rw [if_neg hp, if_neg hp]
      · rw [wStart_eq root m _ _ _ (draws'.normal i), wStart_eq root m _ _ _ (draws.normal i)]
        rw [show (fun j => draws'.normal i (.start j)) = fun j => draws.normal i (.start j) from funext (fun j => hsame.normal i _ (fun _ => by simp))]
      · have h1 : t < nT + 1 := by have := hper _ ht; omega
        rw [wShock_eq root m _ _ _ (draws'.normal i) h1, wShock_eq root m _ _ _ (draws.normal i) h1]
        rw [show (fun j => draws'.normal i (.shock t j)) = fun j => draws.normal i (.shock t j) from funext (fun j => hsame.normal i _ (fun _ => by simp))]
    funext c
    rcases c with ⟨⟨t, f⟩, hc⟩ | ⟨⟨t, v⟩, hc⟩
    · exact hst t hc.1 f hc.2
    · have h2 : t < nT + 2 := hper _ (isUpdate_period hc)
      have herr : wError m (blockMul (simRoot root (simFixed custom m pm val n nT cov) (pm.updateInfo.map (labelRow m val)) policies'.length ((labelCarry m val n k).upperChols ⟨0, hn⟩ (if h : draws.element i < k then ⟨draws.element i, h⟩ else ⟨0, h0⟩))) (fun a => draws'.normal i (simDraw a))) t v = wError m (blockMul (simRoot root (simFixed custom m pm val n nT cov) (pm.updateInfo.map (labelRow m val)) policies.length ((labelCarry m val n k).upperChols ⟨0, hn⟩ (if h : draws.element i < k then ⟨draws.element i, h⟩ else ⟨0, h0⟩))) (fun a => draws.normal i (simDraw a))) t v := by
        rw [wError_eq root m _ _ _ (draws'.normal i) h2, wError_eq root m _ _ _ (draws.normal i) h2]
        rw [show (fun j => draws'.normal i (.error t j)) = fun j => draws.normal i (.error t j) from funext (fun j => hsame.normal i _ (fun _ => by simp))]
      refine (congrArg (fun e => measurementWith m val (cov i) _ e t v) herr).trans ?_
      exact measurementWith_states (fun f hf => hst t (isUpdate_period hc) f hf) _
  rw [show (fun i => noiseCells custom m val (cov i) policies' ((if h : draws.element i < k then ⟨draws.element i, h⟩ else ⟨0, h0⟩) : Fin k) _) = _ from funext hcells] at hx'
  exact ⟨_, out, out', ho, ho', hx, hx', measurements_eq (isNPeriods_of_ok hpm) hx hx' (fun _ _ _ => rfl)⟩

end Skill
