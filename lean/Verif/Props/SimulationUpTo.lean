import Verif.Lemmas.SimulationUpTo
/- C133: simulated data depend only on the inputs of the same individual, and not on the future. -/
namespace Skill
open Matrix Spec

section
variable (root : NormalRoot) {m : ModelDict ℝ} {pm : Processed ℝ} (hpm : processModel m = .ok pm) {k : ℕ} (hm : SimulationModel m k) (custom : String → CustomFn) (nan : ℝ) {val val' : Loc → ℝ} {policies policies' : List Policy}
  (hv : SimulationValues custom m k val policies) (hv' : SimulationValues custom m k val' policies') {params params' : List (Loc × ℝ)} (hparams : HasParams m params val) (hparams' : HasParams m params' val')
  {nObs nObs' : Option Nat} {data data' : Option (LongData ℝ)} {n n' : ℕ} {cov cov' : Nat → Covariates} (hi : Individuals m nObs data n cov) (hi' : Individuals m nObs' data' n' cov')
  {draws draws' : DatasetDraws} (hd : k ≠ 1 → ∀ i < n, draws.element i < k) (hd' : k ≠ 1 → ∀ i < n', draws'.element i < k)
include hpm hm hv hv' hparams hparams' hi hi' hd hd'

/-- C133: what simulate_dataset returns for an individual up to some period depends only on the parameters, policies, control variables, observed factors and random numbers of this individual up to this period: not on other
individuals, and not on what happens later. -/
theorem C133_no_look_ahead {T i i' : ℕ} (hil : i < n) (hil' : i' < n') (hsame : SameInputsUpTo m T val (cov i) policies draws i val' (cov' i') policies' draws' i') :
    ∃ (x x' : Nat → Cell m → ℝ) (out out' : SimulatedDataset), simulateDataset root custom nan m params nObs data policies draws = .ok out ∧
      simulateDataset root custom nan m params' nObs' data' policies' draws' = .ok out' ∧ DatasetIs m val n x out ∧ DatasetIs m val' n' x' out' ∧ ∀ c, cellPeriod c ≤ T → x i c = x' i' c := by
  obtain ⟨nT, hT⟩ : ∃ nT, pm.dimensions.nPeriods = nT + 2 := ⟨pm.dimensions.nPeriods - 2, by have := (isPeriod_iff hpm 1).mp hm.periods; omega⟩
  have h0 : 0 < k := Nat.pos_of_ne_zero hm.elements
  obtain ⟨out, ho, hx⟩ := simulateDataset_cells root hpm hm custom nan hv hparams hi (by omega) hT (draws := draws) (e := fun i => if h : draws.element i < k then ⟨draws.element i, h⟩ else ⟨0, h0⟩) (fun h i hil => by
    rw [dif_pos (hd h i hil)])
  obtain ⟨out', ho', hx'⟩ := simulateDataset_cells root hpm hm custom nan hv' hparams' hi' (by omega) hT (draws := draws') (e := fun i => if h : draws'.element i < k then ⟨draws'.element i, h⟩ else ⟨0, h0⟩)
    (fun h i hil => by rw [dif_pos (hd' h i hil)])
  refine ⟨_, _, out, out', ho, ho', hx, hx', fun c hc => ?_⟩
  rw [hsame.element]
  generalize (if h : draws'.element i' < k then (⟨draws'.element i', h⟩ : Fin k) else ⟨0, h0⟩) = e
  have hper : ∀ t, IsPeriod m t → t < nT + 2 := fun t h => by have := (isPeriod_iff hpm t).mp h; omega
  have hn : (latents m).Nodup := hm.names.keys.factors
  have hU : ∀ (h1 : 0 < n) (h2 : 0 < n'), (labelCarry m val n k).upperChols ⟨0, h1⟩ e = (labelCarry m val' n' k).upperChols ⟨0, h2⟩ e := by
    intro h1 h2
    ext a b
    simp only [labelCarry, of_apply]
    split_ifs
    · exact hsame.params _ ⟨Nat.zero_le _, by rintro (h | h) <;> cases h⟩
    · rfl
  have hrows : ∀ t ≤ T, rowsOf (pm.updateInfo.map (labelRow m val)) t = rowsOf (pm.updateInfo.map (labelRow m val')) t := by
    intro t ht
    unfold rowsOf
    rw [List.filter_map, List.filter_map]
    refine List.map_congr_left (fun r hr => ?_)
    have hrt : r.period = t := by simpa [labelRow] using (List.mem_filter.mp hr).2
    have hl : ∀ c, c ≠ Cat.transition → c ≠ Cat.shockSds → ∀ a b, val ⟨c, r.period, a, b⟩ = val' ⟨c, r.period, a, b⟩ :=
      fun c h1 h2 a b => hsame.params _ ⟨by rw [hrt]; exact ht, by rintro (h | h) <;> contradiction⟩
    unfold labelRow
    congr 1
    · funext f
      rw [hl .loadings (by decide) (by decide)]
    · funext c
      rw [hl .controls (by decide) (by decide)]
    · rw [hl .measSds (by decide) (by decide)]
  have hstart : ∀ f ∈ latents m, val ⟨.initialStates, 0, Spec.mixtureName e, f⟩ + wStart m (blockMul (simRoot root (simFixed custom m pm val n nT cov) (pm.updateInfo.map (labelRow m val)) policies.length
      ((labelCarry m val n k).upperChols ⟨0, by omega⟩ e)) (fun a => draws.normal i (simDraw a))) f = val' ⟨.initialStates, 0, Spec.mixtureName e, f⟩ + wStart m (blockMul (simRoot root (simFixed custom m pm val' n' nT cov')
        (pm.updateInfo.map (labelRow m val')) policies'.length ((labelCarry m val' n' k).upperChols ⟨0, by omega⟩ e)) (fun a => draws'.normal i' (simDraw a))) f := by
    intro f _
    rw [wStart_eq root m _ _ _ (draws.normal i), wStart_eq root m _ _ _ (draws'.normal i'), hU (by omega) (by omega), hsame.params _ ⟨Nat.zero_le _, by rintro (h | h) <;> cases h⟩]
    simp only [hsame.start]
  have hshock : ∀ t < T, IsPeriod m (t + 1) → ∀ f ∈ latents m, wShock m (blockMul (simRoot root (simFixed custom m pm val n nT cov) (pm.updateInfo.map (labelRow m val)) policies.length
      ((labelCarry m val n k).upperChols ⟨0, by omega⟩ e)) (fun a => draws.normal i (simDraw a))) t f = wShock m (blockMul (simRoot root (simFixed custom m pm val' n' nT cov')
        (pm.updateInfo.map (labelRow m val')) policies'.length ((labelCarry m val' n' k).upperChols ⟨0, by omega⟩ e)) (fun a => draws'.normal i' (simDraw a))) t f := by
    intro t ht hp f _
    have h1 : t < nT + 1 := by have := hper _ hp; omega
    rw [wShock_eq root m _ _ _ (draws.normal i) h1, wShock_eq root m _ _ _ (draws'.normal i') h1]
    have hj : (jaxIndex nT t).val = t := by simp [jaxIndex]; omega
    have : (fun f => (simFixed custom m pm val n nT cov).shockSds (jaxIndex nT t) f ^ 2) = fun f => (simFixed custom m pm val' n' nT cov').shockSds (jaxIndex nT t) f ^ 2 := by
      funext g
      show val _ ^ 2 = val' _ ^ 2
      rw [hsame.params _ ⟨by show (jaxIndex nT t).val ≤ T; omega, fun _ => by show (jaxIndex nT t).val < T; omega⟩]
    rw [this]
    simp only [hsame.shocks t ht]
  have herror : ∀ t ≤ T, IsPeriod m t → ∀ v, wError m (blockMul (simRoot root (simFixed custom m pm val n nT cov) (pm.updateInfo.map (labelRow m val)) policies.length
      ((labelCarry m val n k).upperChols ⟨0, by omega⟩ e)) (fun a => draws.normal i (simDraw a))) t v = wError m (blockMul (simRoot root (simFixed custom m pm val' n' nT cov')
        (pm.updateInfo.map (labelRow m val')) policies'.length ((labelCarry m val' n' k).upperChols ⟨0, by omega⟩ e)) (fun a => draws'.normal i' (simDraw a))) t v := by
    intro t ht hp v
    rw [wError_eq root m _ _ _ (draws.normal i) (hper t hp), wError_eq root m _ _ _ (draws'.normal i') (hper t hp), hrows t ht]
    simp only [hsame.errors t ht]
  have hpol : ∀ t ≤ T, ∀ f, policyEffect policies (wPolicy m (blockMul (simRoot root (simFixed custom m pm val n nT cov) (pm.updateInfo.map (labelRow m val)) policies.length
      ((labelCarry m val n k).upperChols ⟨0, by omega⟩ e)) (fun a => draws.normal i (simDraw a)))) t f = policyEffect policies' (wPolicy m (blockMul (simRoot root (simFixed custom m pm val' n' nT cov')
        (pm.updateInfo.map (labelRow m val')) policies'.length ((labelCarry m val' n' k).upperChols ⟨0, by omega⟩ e)) (fun a => draws'.normal i' (simDraw a)))) t f := by
    intro t ht f
    rw [policyEffect_congr (p' := fun k => draws.normal i (.policy k)) (fun j hj => wPolicy_eq root m _ _ _ (draws.normal i) hj),
      policyEffect_congr (policies := policies') (p' := fun k => draws'.normal i' (.policy k)) (fun j hj => wPolicy_eq root m _ _ _ (draws'.normal i') hj)]
    exact policyEffect_upTo hsame.policies ht f
  unfold noiseCells
  rcases c with ⟨⟨t, f⟩, hp, hf⟩ | ⟨⟨t, v⟩, hup⟩
  · exact statesWith_upTo hn hsame hv.usable hstart hshock hpol hp hc hf
  · have hp : IsPeriod m t := isUpdate_period hup
    simp only [cellsWith]
    rw [herror t hc hp]
    exact measurementWith_upTo hsame hc (fun f hf => statesWith_upTo hn hsame hv.usable hstart hshock hpol hp hc hf) _ _

end

end Skill
