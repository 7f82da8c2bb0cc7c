import Verif.Spec.RaisingPolicies
import Verif.Props.SimulationUpTo
import Verif.Props.SimulationUnits
/- C149: policies that raise factors do not lower factors and measurements of later periods. -/
namespace Skill
open Matrix Spec

theorem list_map_sum_mono {α : Type} {l : List α} {g h : α → ℝ} (hl : ∀ a ∈ l, g a ≤ h a) : (l.map g).sum ≤ (l.map h).sum := by
  induction l with
  | nil => simp
  | cons a l ih =>
    rw [List.map_cons, List.map_cons, List.sum_cons, List.sum_cons]
    exact add_le_add (hl a (by simp)) (ih (fun b hb => hl b (by simp [hb])))

theorem list_map_sum_pos {α : Type} {l : List α} {g : α → ℝ} (hl : ∀ a ∈ l, 0 < g a) (hne : l ≠ []) : 0 < (l.map g).sum := by
  induction l with
  | nil => exact absurd rfl hne
  | cons a l ih =>
    rw [List.map_cons, List.sum_cons]
    rcases l with _ | ⟨b, l⟩
    · simpa using hl a (by simp)
    · exact add_pos (hl a (by simp)) (ih (fun c hc => hl c (by simp [hc])) (by simp))

/-- The logarithm of a sum of weights times exponentials. -/
theorem log_sum_mono {fs : List String} (hne : fs ≠ []) {w y y' : String → ℝ} (hw : ∀ g ∈ fs, 0 < w g) (hy : ∀ g ∈ fs, y g ≤ y' g) :
    Real.log (fs.map (fun g => w g * Real.exp (y g))).sum ≤ Real.log (fs.map (fun g => w g * Real.exp (y' g))).sum :=
  Real.log_le_log (list_map_sum_pos (fun g hg => mul_pos (hw g hg) (Real.exp_pos _)) hne) (list_map_sum_mono (fun g hg => mul_le_mul_of_nonneg_left (Real.exp_le_exp.mpr (hy g hg)) (hw g hg).le))

/-- Linear functions with coefficients that are not negative where the arguments differ. -/
theorem linear_mono {fs : List String} {x x' v : String → ℝ} (h : ∀ g ∈ fs, v g * x g ≤ v g * x' g) : linearValue fs x v ≤ linearValue fs x' v := by
  unfold linearValue linearTerms
  exact add_le_add_left (list_map_sum_mono h) _

theorem logCes_mono {fs : List String} (hne : fs ≠ []) {x x' v : String → ℝ} (hw : ∀ g ∈ fs, 0 < v g) (hphi : v "phi" ≠ 0) (hx : ∀ g ∈ fs, x g ≤ x' g) : logCesValue fs x v ≤ logCesValue fs x' v := by
  unfold logCesValue
  rcases lt_or_gt_of_ne hphi with hphi | hphi
  · exact div_le_div_of_nonpos_of_le hphi.le (log_sum_mono hne hw (fun g hg => mul_le_mul_of_nonpos_left (hx g hg) hphi.le))
  · exact div_le_div_of_nonneg_right (log_sum_mono hne hw (fun g hg => mul_le_mul_of_nonneg_left (hx g hg) hphi.le)) hphi.le

theorem logCesGeneral_mono {fs : List String} (hne : fs ≠ []) {x x' v : String → ℝ} (hw : ∀ g ∈ fs, 0 < v g)
    (h : (0 ≤ v "tfp" ∧ ∀ g ∈ fs, v ("sigma_" ++ g) * x g ≤ v ("sigma_" ++ g) * x' g) ∨ (v "tfp" ≤ 0 ∧ ∀ g ∈ fs, v ("sigma_" ++ g) * x' g ≤ v ("sigma_" ++ g) * x g)) : logCesGeneralValue fs x v ≤ logCesGeneralValue fs x' v := by
  unfold logCesGeneralValue
  rcases h with ⟨h1, h2⟩ | ⟨h1, h2⟩
  · exact mul_le_mul_of_nonneg_left (log_sum_mono hne hw h2) h1
  · exact mul_le_mul_of_nonpos_left (log_sum_mono hne hw h2) h1

/-- **C149**: built-in transition functions are increasing for parameters with the right signs. -/
theorem C149_increasing (custom : String → CustomFn) {m : ModelDict ℝ} (hg : GoodNames m) {val : Loc → ℝ} (h : IncreasingValues m val) : IncreasingTransitions custom m val := by
  intro t ht cov s s' f hf hs
  obtain ⟨spec, hmem⟩ := hf
  obtain ⟨name, hname, hcase⟩ := h.2 t ht f spec hmem
  have ht' : IsPeriod m t := by
    obtain ⟨N, hN, hlt⟩ := ht
    exact ⟨N, hN, by omega⟩
  have hscale : ∀ t, IsPeriod m t → ∀ g, 0 < anchorScale m val t g := by
    intro t ht g
    by_cases ha : ∃ o, AnchoredIn m g o
    · obtain ⟨o, ha⟩ := ha
      rw [(anchor_some hg.keys ha val t).1]
      exact h.1 t ht g o ha
    · rw [(anchor_none hg.keys (fun o ho => ha ⟨o, ho⟩) val t).1]
      exact one_pos
  have htr : transitionOf custom m f = .builtin name := by
    unfold transitionOf
    rw [lookup_of_mem hg.keys.factors hmem]
    show transFnOf (custom f) spec.transition = _
    rw [hname]
    rfl
  have hfl : f ∈ Spec.latents m := (mem_latents_iff m f).mpr ⟨spec, hmem⟩
  have hfa : f ∈ allFactors m := List.mem_append_left _ hfl
  have hne : allFactors m ≠ [] := List.ne_nil_of_mem hfa
  unfold factorNext
  refine div_le_div_of_nonneg_right (sub_le_sub_right ?_ _) (hscale (t + 1) ht f).le
  rw [htr]
  -- the factors in the units of their outcomes
  have hx : ∀ g, (if g ∈ Spec.latents m then anchoredValue m val t g (s g) else cov.factor t g) ≤ (if g ∈ Spec.latents m then anchoredValue m val t g (s' g) else cov.factor t g) := by
    intro g
    split_ifs with hgl
    · unfold anchoredValue
      exact add_le_add_right (mul_le_mul_of_nonneg_left (hs g ((mem_latents_iff m g).mp hgl)) (hscale t ht' g).le) _
    · exact le_rfl
  have hx' : ∀ g, g ∉ Spec.latents m → (if g ∈ Spec.latents m then anchoredValue m val t g (s g) else cov.factor t g) = (if g ∈ Spec.latents m then anchoredValue m val t g (s' g) else cov.factor t g) := by
    intro g hgl
    rw [if_neg hgl, if_neg hgl]
  have hmul : ∀ g (y : ℝ), (IsLatent m g → 0 ≤ y) → y * (if g ∈ Spec.latents m then anchoredValue m val t g (s g) else cov.factor t g) ≤ y * (if g ∈ Spec.latents m then anchoredValue m val t g (s' g) else cov.factor t g) := by
    intro g y hy
    by_cases hgl : g ∈ Spec.latents m
    · exact mul_le_mul_of_nonneg_left (hx g) (hy ((mem_latents_iff m g).mp hgl))
    · rw [hx' g hgl]
  have hmul' : ∀ g (y : ℝ), (IsLatent m g → y ≤ 0) → y * (if g ∈ Spec.latents m then anchoredValue m val t g (s' g) else cov.factor t g) ≤ y * (if g ∈ Spec.latents m then anchoredValue m val t g (s g) else cov.factor t g) := by
    intro g y hy
    by_cases hgl : g ∈ Spec.latents m
    · exact mul_le_mul_of_nonpos_left (hx g) (hy ((mem_latents_iff m g).mp hgl))
    · rw [hx' g hgl]
  rcases hcase with rfl | ⟨rfl, h1⟩ | ⟨rfl, h1, h2⟩ | ⟨rfl, h1, h2⟩
  · exact hx f
  · exact linear_mono (fun g _ => hmul g _ (h1 g))
  · exact logCes_mono hne h1 h2 (fun g _ => hx g)
  · refine logCesGeneral_mono hne h1 ?_
    rcases h2 with ⟨h2, h3⟩ | ⟨h2, h3⟩
    · exact Or.inl ⟨h2, fun g _ => hmul g _ (h3 g)⟩
    · exact Or.inr ⟨h2, fun g _ => hmul' g _ (h3 g)⟩

/-- Policies with additional certain effects. -/
theorem policyEffect_raised {policies extra : List Policy} {z : ℕ → ℝ} (h : ∀ p ∈ extra, 0 ≤ p.effectSize ∧ p.standardDeviation = 0) (t : ℕ) (f : String) : policyEffect policies z t f ≤ policyEffect (policies ++ extra) z t f := by
  unfold policyEffect
  rw [List.zipIdx_append, List.filter_append, List.map_append, List.sum_append]
  refine le_add_of_nonneg_right (List.sum_nonneg (fun y hy => ?_))
  obtain ⟨p, hp, rfl⟩ := List.mem_map.mp hy
  obtain ⟨h1, h2⟩ := h p.1 (List.fst_mem_of_mem_zipIdx (List.mem_of_mem_filter hp))
  rw [h2, zero_mul, add_zero]
  exact h1

section
variable {m : ModelDict ℝ} {custom : String → CustomFn} {val : Loc → ℝ}

/-- Latent factors do not fall. -/
theorem statesWith_raised (hinc : IncreasingTransitions custom m val) (cov : Covariates) {policies policies' : List Policy} {start start' : String → ℝ} {shock shock' : Nat → String → ℝ} {pol pol' : Nat → ℝ}
    (h1 : ∀ f ∈ Spec.latents m, start' f = start f) (h2 : ∀ t, IsPeriod m (t + 1) → ∀ f ∈ Spec.latents m, shock' t f = shock t f) (h3 : ∀ t f, policyEffect policies pol t f ≤ policyEffect policies' pol' t f) {t : ℕ} (hp : IsPeriod m t) :
    ∀ f ∈ Spec.latents m, statesWith custom m val cov policies start shock pol t f ≤ statesWith custom m val cov policies' start' shock' pol' t f := by
  have he : ∀ t f, effectWith m policies pol t f ≤ effectWith m policies' pol' t f := by
    intro t f
    unfold effectWith
    split_ifs
    · exact h3 t f
    · exact le_rfl
  induction t with
  | zero =>
    intro f hf
    simp only [statesWith, h1 f hf]
    exact add_le_add_right (he 0 f) _
  | succ t ih =>
    intro f hf
    have ht' : IsPeriod m t := by
      obtain ⟨N, hN, hlt⟩ := hp
      exact ⟨N, hN, by omega⟩
    simp only [statesWith, h2 t hp f hf]
    exact add_le_add (add_le_add_left (hinc t hp cov _ _ f ((mem_latents_iff m f).mp hf) (fun g hg => ih ht' g ((mem_latents_iff m g).mpr hg))) _) (he (t + 1) f)

/-- Measurements do not fall. -/
theorem measurementWith_raised (cov : Covariates) {t : ℕ} {states states' : Nat → String → ℝ} (hs : ∀ f ∈ Spec.latents m, states t f ≤ states' t f) (error : ℝ) {v : String} (hl : ∀ f, Loads m t v f → 0 ≤ val ⟨.loadings, t, v, f⟩) :
    measurementWith m val cov states error t v ≤ measurementWith m val cov states' error t v := by
  classical
  unfold measurementWith
  refine add_le_add_left (add_le_add_right (list_map_sum_mono (fun f hf => ?_)) _) _
  split_ifs with h
  · exact mul_le_mul_of_nonneg_left (hs f hf) (hl f h)
  · exact le_rfl

end

/-- **C149**: simulate a dataset twice with the same random numbers, the second time with additional policies that raise factors (without randomness). If transition functions are increasing, then no latent factor of any individual falls in any
period, and neither do measurements with loadings that are not negative, nor anchored factors if the loading of the anchoring equation is not negative. -/
theorem C149_raising_policies (root : NormalRoot) {m : ModelDict ℝ} {pm : Processed ℝ} (hpm : processModel m = .ok pm) {k : ℕ} (hm : SimulationModel m k) (custom : String → CustomFn) (nan : ℝ) {val : Loc → ℝ} (hinc : IncreasingTransitions custom m val)
    {policies extra : List Policy} (hv : SimulationValues custom m k val policies) (hextra : ∀ p ∈ extra, 0 ≤ p.effectSize ∧ p.standardDeviation = 0 ∧ IsLatent m p.factor) {params : List (Loc × ℝ)} (hparams : HasParams m params val)
    {nObs : Option Nat} {data : Option (LongData ℝ)} {n : ℕ} {cov : Nat → Covariates} (hi : Individuals m nObs data n cov) (hn : 0 < n) {draws : DatasetDraws} (hd : k ≠ 1 → ∀ i < n, draws.element i < k) :
    ∃ (x x' : Nat → Cell m → ℝ) (out out' : SimulatedDataset), simulateDataset root custom nan m params nObs data policies draws = .ok out ∧ simulateDataset root custom nan m params nObs data (policies ++ extra) draws = .ok out' ∧
      DatasetIs m val n x out ∧ DatasetIs m val n x' out' ∧
      (∀ i < n, ∀ c : {p : Nat × String // IsUpdate m p.1 p.2}, (∀ f, Loads m c.1.1 c.1.2 f → 0 ≤ val ⟨.loadings, c.1.1, c.1.2, f⟩) → x i (.inr c) ≤ x' i (.inr c)) ∧
      (∀ i < n, ∀ c : {p : Nat × String // IsPeriod m p.1 ∧ p.2 ∈ Spec.latents m}, x i (.inl c) ≤ x' i (.inl c) ∧
        (0 ≤ anchorScale m val c.1.1 c.1.2 → anchoredValue m val c.1.1 c.1.2 (x i (.inl c)) ≤ anchoredValue m val c.1.1 c.1.2 (x' i (.inl c)))) := by
  obtain ⟨nT, hT⟩ : ∃ nT, pm.dimensions.nPeriods = nT + 2 := ⟨pm.dimensions.nPeriods - 2, by have := (isPeriod_iff hpm 1).mp hm.periods; omega⟩
  have h0 : 0 < k := Nat.pos_of_ne_zero hm.elements
  have hv' : SimulationValues custom m k val (policies ++ extra) := ⟨hv.positive, hv.sum, hv.usable, fun p hp hper => by
    rcases List.mem_append.mp hp with hp | hp
    · exact hv.policies p hp hper
    · obtain ⟨_, h2, h3⟩ := hextra p hp
      exact ⟨h3, h2.ge⟩⟩
  have he : k ≠ 1 → ∀ i < n, draws.element i = ((if h : draws.element i < k then ⟨draws.element i, h⟩ else ⟨0, h0⟩ : Fin k) : ℕ) := fun h i hil => by rw [dif_pos (hd h i hil)]
  obtain ⟨out, ho, hx⟩ := simulateDataset_cells root hpm hm custom nan hv hparams hi hn hT (draws := draws) (e := fun i => if h : draws.element i < k then ⟨draws.element i, h⟩ else ⟨0, h0⟩) he
  obtain ⟨out', ho', hx'⟩ := simulateDataset_cells root hpm hm custom nan hv' hparams hi hn hT (draws := draws) (e := fun i => if h : draws.element i < k then ⟨draws.element i, h⟩ else ⟨0, h0⟩) he
  have hper : ∀ t, IsPeriod m t → t < nT + 2 := fun t h => by have := (isPeriod_iff hpm t).mp h; omega
  have hstates : ∀ (i : ℕ) (e : Fin k), ∀ t, IsPeriod m t → ∀ f ∈ Spec.latents m, statesWith custom m val (cov i) policies
      (fun f => val ⟨.initialStates, 0, Spec.mixtureName e, f⟩ + wStart m (blockMul (simRoot root (simFixed custom m pm val n nT cov) (pm.updateInfo.map (labelRow m val)) policies.length ((labelCarry m val n k).upperChols ⟨0, hn⟩ e)) (fun a => draws.normal i (simDraw a))) f)
      (wShock m (blockMul (simRoot root (simFixed custom m pm val n nT cov) (pm.updateInfo.map (labelRow m val)) policies.length ((labelCarry m val n k).upperChols ⟨0, hn⟩ e)) (fun a => draws.normal i (simDraw a))))
      (wPolicy m (blockMul (simRoot root (simFixed custom m pm val n nT cov) (pm.updateInfo.map (labelRow m val)) policies.length ((labelCarry m val n k).upperChols ⟨0, hn⟩ e)) (fun a => draws.normal i (simDraw a)))) t f ≤
      statesWith custom m val (cov i) (policies ++ extra)
      (fun f => val ⟨.initialStates, 0, Spec.mixtureName e, f⟩ + wStart m (blockMul (simRoot root (simFixed custom m pm val n nT cov) (pm.updateInfo.map (labelRow m val)) (policies ++ extra).length ((labelCarry m val n k).upperChols ⟨0, hn⟩ e)) (fun a => draws.normal i (simDraw a))) f)
      (wShock m (blockMul (simRoot root (simFixed custom m pm val n nT cov) (pm.updateInfo.map (labelRow m val)) (policies ++ extra).length ((labelCarry m val n k).upperChols ⟨0, hn⟩ e)) (fun a => draws.normal i (simDraw a))))
      (wPolicy m (blockMul (simRoot root (simFixed custom m pm val n nT cov) (pm.updateInfo.map (labelRow m val)) (policies ++ extra).length ((labelCarry m val n k).upperChols ⟨0, hn⟩ e)) (fun a => draws.normal i (simDraw a)))) t f := by
    intro i e t ht
    refine statesWith_raised hinc (cov i) (fun f hf => rfl) (fun t ht f hf => ?_) (fun t f => ?_) ht
    · have h1 : t < nT + 1 := by have := hper _ ht; omega
      rw [wShock_eq root m _ _ _ (draws.normal i) h1, wShock_eq root m _ _ _ (draws.normal i) h1]
    · rw [policyEffect_congr (p' := fun k => draws.normal i (.policy k)) (fun j hj => wPolicy_eq root m _ _ _ (draws.normal i) hj),
        policyEffect_congr (policies := policies ++ extra) (p' := fun k => draws.normal i (.policy k)) (fun j hj => wPolicy_eq root m _ _ _ (draws.normal i) hj)]
      exact policyEffect_raised (fun p hp => ⟨(hextra p hp).1, (hextra p hp).2.1⟩) t f
  refine ⟨_, _, out, out', ho, ho', hx, hx', fun i hil c hl => ?_, fun i hil c => ⟨hstates i _ c.1.1 c.2.1 c.1.2 c.2.2, fun ha => ?_⟩⟩
  · have hp : IsPeriod m c.1.1 := isUpdate_period c.2
    have herr := (wError_eq root m (simFixed custom m pm val n nT cov) (pm.updateInfo.map (labelRow m val)) ((labelCarry m val n k).upperChols ⟨0, hn⟩ (if h : draws.element i < k then ⟨draws.element i, h⟩ else ⟨0, h0⟩)) (draws.normal i) (nPol := policies.length) (hper _ hp) c.1.2).trans
      (wError_eq root m (simFixed custom m pm val n nT cov) (pm.updateInfo.map (labelRow m val)) ((labelCarry m val n k).upperChols ⟨0, hn⟩ (if h : draws.element i < k then ⟨draws.element i, h⟩ else ⟨0, h0⟩)) (draws.normal i) (nPol := (policies ++ extra).length) (hper _ hp) c.1.2).symm
    exact (congrArg (fun e => measurementWith m val (cov i) _ e c.1.1 c.1.2) herr).le.trans (measurementWith_raised (cov i) (hstates i (if h : draws.element i < k then ⟨draws.element i, h⟩ else ⟨0, h0⟩) c.1.1 hp) _ hl)
  · exact add_le_add_right (mul_le_mul_of_nonneg_left (hstates i _ c.1.1 c.2.1 c.1.2 c.2.2) ha) _

end Skill
