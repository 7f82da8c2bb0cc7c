import Verif.Spec.PolicyEffects
import Verif.Lemmas.SimulationUpTo
/- C135: the effects of policies in models with linear transition functions. -/
namespace Skill
open Matrix Spec

theorem list_sum_sub {γ : Type} (l : List γ) (a b : γ → ℝ) : (l.map a).sum - (l.map b).sum = (l.map (fun x => a x - b x)).sum := by
  induction l with
  | nil => simp
  | cons x l ih => rw [List.map_cons, List.map_cons, List.map_cons, List.sum_cons, List.sum_cons, List.sum_cons, ← ih]; ring

section
variable {m : ModelDict ℝ} (hg : GoodNames m) (hlin : LinearTransitions m) (custom : String → CustomFn) (val : Loc → ℝ) (cov : Covariates)
include hg hlin

theorem factorNext_sub (t : Nat) (s s' : String → ℝ) {f : String} (hf : f ∈ latents m) : factorNext custom m val cov t s f - factorNext custom m val cov t s' f =
    (open Classical in if HasTransition m f "constant" then anchorScale m val t f * (s f - s' f)
      else ((latents m).map (fun g => val ⟨.transition, t, f, g⟩ * (anchorScale m val t g * (s g - s' g)))).sum) / anchorScale m val (t + 1) f := by
  classical
  unfold factorNext
  rw [← sub_div, sub_sub_sub_cancel_right]
  congr 1
  obtain ⟨⟨f', spec⟩, hfs, rfl⟩ := List.mem_map.mp hf
  have h1 : transitionOf custom m f' = transFnOf (custom f') spec.transition := by
    unfold transitionOf
    rw [lookup_of_mem hg.keys.factors hfs]
    rfl
  dsimp only at hf ⊢
  rw [h1]
  rcases hlin f' spec hfs with h | h
  · rw [h, if_neg]
    · show linearValue _ _ _ - linearValue _ _ _ = _
      unfold linearValue linearTerms
      rw [add_sub_add_right_eq_sub, list_sum_sub, show allFactors m = latents m ++ m.observedFactors.getD [] from rfl, List.map_append, List.sum_append]
      have hd : ∀ g ∈ m.observedFactors.getD [], g ∉ latents m := fun g hg1 hg2 => (List.disjoint_of_nodup_append hg.distinct) hg2 hg1
      have hz : ((m.observedFactors.getD []).map (fun g => val ⟨.transition, t, f', g⟩ * (if g ∈ latents m then anchoredValue m val t g (s g) else cov.factor t g) -
          val ⟨.transition, t, f', g⟩ * (if g ∈ latents m then anchoredValue m val t g (s' g) else cov.factor t g))).sum = 0 := by
        refine List.sum_eq_zero (fun x hx => ?_)
        obtain ⟨g, hg1, rfl⟩ := List.mem_map.mp hx
        rw [if_neg (hd g hg1), if_neg (hd g hg1), sub_self]
      rw [hz, add_zero]
      congr 1
      refine List.map_congr_left (fun g hg1 => ?_)
      dsimp only
      rw [if_pos hg1, if_pos hg1]
      unfold anchoredValue
      ring
    · rintro ⟨spec', hfs', h'⟩
      have h2 := lookup_of_mem hg.keys.factors hfs
      rw [lookup_of_mem hg.keys.factors hfs'] at h2
      obtain rfl := Option.some.inj h2
      rw [h] at h'
      exact absurd (TransSpec.named.inj h') (by decide)
  · rw [h, if_pos ⟨spec, hfs, h⟩]
    have : ∀ x v, nextValue (allFactors m) x v f' (transFnOf (custom f') (.named "constant")) = x f' := fun x v => by simp [transFnOf, nextValue]
    rw [this, this, if_pos hf, if_pos hf]
    unfold anchoredValue
    ring

theorem statesWith_sub {policies policies' : List Policy} {start start' : String → ℝ} {shock shock' : Nat → String → ℝ} {pol pol' : Nat → ℝ} {d : Nat → String → ℝ} (h1 : ∀ f ∈ latents m, start f = start' f)
    (h2 : ∀ t, IsPeriod m (t + 1) → ∀ f ∈ latents m, shock t f = shock' t f) (h3 : ∀ t f, effectWith m policies pol t f - effectWith m policies' pol' t f = d t f) {t : Nat} (hp : IsPeriod m t) {f : String}
    (hf : f ∈ latents m) : statesWith custom m val cov policies start shock pol t f - statesWith custom m val cov policies' start' shock' pol' t f = totalEffect m val d t f := by
  classical
  induction t generalizing f with
  | zero =>
    simp only [statesWith, totalEffect]
    rw [h1 f hf, ← h3]
    ring
  | succ t ih =>
    have hp' : IsPeriod m t := by
      obtain ⟨N, hN, hlt⟩ := hp
      exact ⟨N, hN, by omega⟩
    have ih := fun f hf => ih hp' (f := f) hf
    simp only [statesWith, totalEffect]
    rw [h2 t hp f hf, ← h3]
    have e := factorNext_sub hg hlin custom val cov t (statesWith custom m val cov policies start shock pol t) (statesWith custom m val cov policies' start' shock' pol' t) hf
    rw [ih f hf, List.map_congr_left (fun g hg' => by rw [ih g hg'])] at e
    rw [← e]
    ring

omit hg hlin in
theorem measurementWith_sub {s s' change : Nat → String → ℝ} {t : Nat} (h : ∀ f ∈ latents m, s t f - s' t f = change t f) (error : ℝ) (v : String) :
    measurementWith m val cov s error t v - measurementWith m val cov s' error t v =
      (open Classical in ((latents m).map (fun f => if Measures m t v f ∨ Anchors m v f then val ⟨.loadings, t, v, f⟩ * change t f else 0)).sum) := by
  classical
  unfold measurementWith
  rw [add_sub_add_right_eq_sub, add_sub_add_left_eq_sub, list_sum_sub]
  congr 1
  refine List.map_congr_left (fun f hf => ?_)
  rw [← h f hf]
  split_ifs
  · ring
  · ring

end

section
variable (root : NormalRoot) {m : ModelDict ℝ} {pm : Processed ℝ} (hpm : processModel m = .ok pm) {k : ℕ} (hm : SimulationModel m k) (hlin : LinearTransitions m) (custom : String → CustomFn) (nan : ℝ) {val : Loc → ℝ}
  {policies policies' : List Policy} (hv : SimulationValues custom m k val policies) (hv' : SimulationValues custom m k val policies') {params : List (Loc × ℝ)} (hparams : HasParams m params val) {nObs : Option Nat}
  {data : Option (LongData ℝ)} {n : ℕ} {cov : Nat → Covariates} (hi : Individuals m nObs data n cov) (hn0 : 0 < n) {draws draws' : DatasetDraws} (hd : k ≠ 1 → ∀ i < n, draws.element i < k)
  (hsame : ∀ i < n, SameNoise draws draws' i)
include hpm hm hlin hv hv' hparams hi hn0 hd hsame

/-- **C135**: if all transition functions are linear, the difference between simulated datasets with different policies only depends on the policies and the parameters: the effects of the policies are handed on by the
transition parameters, and change measurements according to the loadings. -/
theorem C135_policy_effects : ∃ (x x' : Nat → Cell m → ℝ) (out out' : SimulatedDataset), simulateDataset root custom nan m params nObs data policies draws = .ok out ∧
      simulateDataset root custom nan m params nObs data policies' draws' = .ok out' ∧ DatasetIs m val n x out ∧ DatasetIs m val n x' out' ∧
      ∀ i < n, ∀ c, x i c - x' i c = cellEffect m val (totalEffect m val (policyDifference m policies (fun j => draws.normal i (.policy j)) policies' (fun j => draws'.normal i (.policy j)))) c := by
  classical
  obtain ⟨nT, hT⟩ : ∃ nT, pm.dimensions.nPeriods = nT + 2 := ⟨pm.dimensions.nPeriods - 2, by have := (isPeriod_iff hpm 1).mp hm.periods; omega⟩
  have h0 : 0 < k := Nat.pos_of_ne_zero hm.elements
  let e : Nat → Fin k := fun i => if h : draws.element i < k then ⟨draws.element i, h⟩ else ⟨0, h0⟩
  have he : k ≠ 1 → ∀ i < n, draws.element i = e i := fun h i hil => by
    show _ = (Fin.val (if h : draws.element i < k then ⟨draws.element i, h⟩ else ⟨0, h0⟩))
    rw [dif_pos (hd h i hil)]
  obtain ⟨out, ho, hx⟩ := simulateDataset_cells root hpm hm custom nan hv hparams hi hn0 hT (draws := draws) (e := e) he
  obtain ⟨out', ho', hx'⟩ := simulateDataset_cells root hpm hm custom nan hv' hparams hi hn0 hT (draws := draws') (e := e) (fun h i hil => by rw [← (hsame i hil).element, he h i hil])
  refine ⟨_, _, out, out', ho, ho', hx, hx', fun i hil c => ?_⟩
  have hs := hsame i hil
  have hper : ∀ t, IsPeriod m t → t < nT + 2 := fun t h => by have := (isPeriod_iff hpm t).mp h; omega
  set w := blockMul (simRoot root (simFixed custom m pm val n nT cov) (pm.updateInfo.map (labelRow m val)) policies.length ((labelCarry m val n k).upperChols ⟨0, hn0⟩ (e i))) (fun a => draws.normal i (simDraw a)) with hw
  set w' := blockMul (simRoot root (simFixed custom m pm val n nT cov) (pm.updateInfo.map (labelRow m val)) policies'.length ((labelCarry m val n k).upperChols ⟨0, hn0⟩ (e i))) (fun a => draws'.normal i (simDraw a)) with hw'
  have hstart : ∀ f, wStart m w f = wStart m w' f := fun f => by
    rw [hw, hw', wStart_eq root m _ _ _ (draws.normal i), wStart_eq root m _ _ _ (draws'.normal i)]
    simp only [hs.start]
  have hshock : ∀ t, IsPeriod m (t + 1) → ∀ f, wShock m w t f = wShock m w' t f := fun t hp f => by
    have h1 : t < nT + 1 := by have := hper _ hp; omega
    rw [hw, hw', wShock_eq root m _ _ _ (draws.normal i) h1, wShock_eq root m _ _ _ (draws'.normal i) h1]
    simp only [hs.shocks]
  have herror : ∀ t, IsPeriod m t → ∀ v, wError m w t v = wError m w' t v := fun t hp v => by
    rw [hw, hw', wError_eq root m _ _ _ (draws.normal i) (hper t hp), wError_eq root m _ _ _ (draws'.normal i) (hper t hp)]
    simp only [hs.errors]
  have hpol : ∀ t f, effectWith m policies (wPolicy m w) t f - effectWith m policies' (wPolicy m w') t f =
      policyDifference m policies (fun j => draws.normal i (.policy j)) policies' (fun j => draws'.normal i (.policy j)) t f := fun t f => by
    unfold effectWith policyDifference
    rw [policyEffect_congr (p' := fun k => draws.normal i (.policy k)) (fun j hj => wPolicy_eq root m _ _ _ (draws.normal i) hj),
      policyEffect_congr (policies := policies') (p' := fun k => draws'.normal i (.policy k)) (fun j hj => wPolicy_eq root m _ _ _ (draws'.normal i) hj)]
    split_ifs
    · rfl
    · exact sub_zero _
  have key : ∀ {t : ℕ}, IsPeriod m t → ∀ f ∈ latents m, statesWith custom m val (cov i) policies (fun f => val ⟨.initialStates, 0, Spec.mixtureName (e i), f⟩ + wStart m w f) (wShock m w) (wPolicy m w) t f -
      statesWith custom m val (cov i) policies' (fun f => val ⟨.initialStates, 0, Spec.mixtureName (e i), f⟩ + wStart m w' f) (wShock m w') (wPolicy m w') t f =
      totalEffect m val (policyDifference m policies (fun j => draws.normal i (.policy j)) policies' (fun j => draws'.normal i (.policy j))) t f := fun hp f hf =>
    statesWith_sub hm.names hlin custom val (cov i) (fun f _ => by rw [hstart]) (fun t hp f _ => hshock t hp f) hpol hp hf
  unfold noiseCells
  rcases c with ⟨⟨t, f⟩, hp, hf⟩ | ⟨⟨t, v⟩, hup⟩
  · exact key hp f hf
  · have hp : IsPeriod m t := isUpdate_period hup
    simp only [cellsWith, cellEffect]
    rw [herror t hp]
    exact measurementWith_sub val (cov i) (key hp) _ v

omit hpm hm hlin hv hv' hparams hi hn0 hd hsame in
theorem policyEffect_fixed {policies : List Policy} (h : ∀ p ∈ policies, p.standardDeviation = 0) (d d' : Nat → ℝ) : policyEffect policies d = policyEffect policies d' := by
  funext t f
  unfold policyEffect
  congr 1
  refine List.map_congr_left (fun p hp => ?_)
  have hp1 := List.fst_mem_of_mem_zipIdx (List.mem_filter.mp hp).1
  rw [h _ hp1, zero_mul, zero_mul]

omit hpm hm hlin hv hv' hparams hi hn0 hd hsame in
/-- The effects of a policy without randomness do not depend on its position in the list. -/
theorem policyEffect_zipIdx {policies : List Policy} (h : ∀ p ∈ policies, p.standardDeviation = 0) (d : Nat → ℝ) (j t : Nat) (f : String) :
    (((policies.zipIdx j).filter (fun p => decide (p.1.period = t ∧ p.1.factor = f))).map (fun p => p.1.effectSize + p.1.standardDeviation * d p.2)).sum =
      ((policies.filter (fun p => decide (p.period = t ∧ p.factor = f))).map (fun p => p.effectSize)).sum := by
  induction policies generalizing j with
  | nil => rfl
  | cons p ps ih =>
    rw [List.zipIdx_cons, List.filter_cons, List.filter_cons]
    have ih' := ih (fun q hq => h q (List.mem_cons_of_mem _ hq)) (j + 1)
    by_cases hp : p.period = t ∧ p.factor = f
    · rw [if_pos (decide_eq_true hp), if_pos (decide_eq_true hp), List.map_cons, List.map_cons, List.sum_cons, List.sum_cons, ih', h p List.mem_cons_self, zero_mul, add_zero]
    · rw [if_neg (by simpa using hp), if_neg (by simpa using hp), ih']

omit hpm hm hlin hv hv' hparams hi hn0 hd hsame in
theorem policyEffect_fixed_append {policies policies' : List Policy} (h : ∀ p ∈ policies, p.standardDeviation = 0) (h' : ∀ p ∈ policies', p.standardDeviation = 0) (d : Nat → ℝ) (t : Nat) (f : String) :
    policyEffect (policies ++ policies') d t f = policyEffect policies d t f + policyEffect policies' d t f := by
  unfold policyEffect
  rw [policyEffect_zipIdx h, policyEffect_zipIdx h', policyEffect_zipIdx (fun p hp => (List.mem_append.mp hp).elim (h p) (h' p)), List.filter_append, List.map_append, List.sum_append]

/-- **C135**: policies whose effects have the standard deviation 0 change each cell by the same number for all individuals, whatever their history and covariates. -/
theorem C135_same_for_everyone (h0 : ∀ p ∈ policies, p.standardDeviation = 0) (h0' : ∀ p ∈ policies', p.standardDeviation = 0) :
    ∃ (effect : Cell m → ℝ) (x x' : Nat → Cell m → ℝ) (out out' : SimulatedDataset), simulateDataset root custom nan m params nObs data policies draws = .ok out ∧
      simulateDataset root custom nan m params nObs data policies' draws' = .ok out' ∧ DatasetIs m val n x out ∧ DatasetIs m val n x' out' ∧ ∀ i < n, ∀ c, x i c = x' i c + effect c := by
  obtain ⟨x, x', out, out', h1, h2, h3, h4, h5⟩ := C135_policy_effects root hpm hm hlin custom nan hv hv' hparams hi hn0 hd hsame
  refine ⟨cellEffect m val (totalEffect m val (policyDifference m policies (fun _ => 0) policies' (fun _ => 0))), x, x', out, out', h1, h2, h3, h4, fun i hil c => ?_⟩
  have h6 := h5 i hil c
  have h7 : policyDifference m policies (fun j => draws.normal i (.policy j)) policies' (fun j => draws'.normal i (.policy j)) = policyDifference m policies (fun _ => 0) policies' (fun _ => 0) := by
    funext t f
    unfold policyDifference
    rw [policyEffect_fixed h0 _ (fun _ => 0), policyEffect_fixed h0' _ (fun _ => 0)]
  rw [h7] at h6
  linarith

omit hsame in
/-- **C135**: the effects of policies with the standard deviation 0 add up: the policies `policies'` have the same effect on a simulation with the policies `policies` as on a simulation without policies. -/
theorem C135_add_up (h0 : ∀ p ∈ policies, p.standardDeviation = 0) (h0' : ∀ p ∈ policies', p.standardDeviation = 0) :
    ∃ (both first second none : Nat → Cell m → ℝ) (out₁ out₂ out₃ out₄ : SimulatedDataset), simulateDataset root custom nan m params nObs data (policies ++ policies') draws = .ok out₁ ∧
      simulateDataset root custom nan m params nObs data policies draws = .ok out₂ ∧ simulateDataset root custom nan m params nObs data policies' draws = .ok out₃ ∧
      simulateDataset root custom nan m params nObs data [] draws = .ok out₄ ∧ DatasetIs m val n both out₁ ∧ DatasetIs m val n first out₂ ∧ DatasetIs m val n second out₃ ∧ DatasetIs m val n none out₄ ∧
      ∀ i < n, ∀ c, both i c - first i c = second i c - none i c := by
  have hv1 : SimulationValues custom m k val (policies ++ policies') := ⟨hv.positive, hv.sum, hv.usable, fun p hp => (List.mem_append.mp hp).elim (hv.policies p) (hv'.policies p)⟩
  have hv2 : SimulationValues custom m k val [] := ⟨hv.positive, hv.sum, hv.usable, fun p hp => by simp at hp⟩
  have hs : ∀ i < n, SameNoise draws draws i := fun _ _ => ⟨rfl, fun _ => rfl, fun _ _ => rfl, fun _ _ => rfl⟩
  obtain ⟨x, x', out, out', h1, h2, h3, h4, h5⟩ := C135_policy_effects root hpm hm hlin custom nan hv1 hv hparams hi hn0 hd hs
  obtain ⟨y, y', res, res', g1, g2, g3, g4, g5⟩ := C135_policy_effects root hpm hm hlin custom nan hv' hv2 hparams hi hn0 hd hs
  refine ⟨x, x', y, y', out, out', res, res', h1, h2, g1, g2, h3, h4, g3, g4, fun i hil c => ?_⟩
  rw [h5 i hil c, g5 i hil c]
  congr 2
  funext t f
  unfold policyDifference
  rw [policyEffect_fixed_append h0 h0', add_sub_cancel_left]
  have : policyEffect [] (fun j => draws.normal i (.policy j)) t f = 0 := rfl
  rw [this, sub_zero]

end

end Skill
