import Verif.Spec.DistributionPlots
import Verif.Lemmas.TransitionPlots
import Verif.Props.DebugData
import Mathlib.LinearAlgebra.Matrix.Determinant.Basic
/- Lemmas for plots of distributions. -/
namespace Skill
open Spec Matrix

/-! ### kernel densities -/

/-- A point of the plane. -/
def vec2 (p : ℝ × ℝ) : Fin 2 → ℝ := ![p.1, p.2]

theorem list_sum_vec {ι : Type} (l : List ι) (F : ι → Fin 2 → ℝ) (i : Fin 2) : (l.map F).sum i = (l.map (fun p => F p i)).sum := by
  induction l with
  | nil => rfl
  | cons a as ih => rw [List.map_cons, List.sum_cons, Pi.add_apply, ih, List.map_cons, List.sum_cons]

theorem list_sum_mat {ι : Type} (l : List ι) (F : ι → Matrix (Fin 2) (Fin 2) ℝ) (i j : Fin 2) : (l.map F).sum i j = (l.map (fun p => F p i j)).sum := by
  induction l with
  | nil => rfl
  | cons a as ih => rw [List.map_cons, List.sum_cons, Matrix.add_apply, ih, List.map_cons, List.sum_cons]

theorem pointMean_apply (ps : List (ℝ × ℝ)) : pointMean (ps.map vec2) = ![(ps.map (fun p => p.1)).sum / ps.length, (ps.map (fun p => p.2)).sum / ps.length] := by
  unfold pointMean
  funext i
  rw [Pi.smul_apply, list_sum_vec, List.length_map, smul_eq_mul]
  fin_cases i <;> simp [vec2] <;> ring

theorem sampleCov_eq (ps : List (ℝ × ℝ)) : pointCovariance (ps.map vec2) = !![(sampleCov ps).1, (sampleCov ps).2.1; (sampleCov ps).2.1, (sampleCov ps).2.2] := by
  unfold pointCovariance
  rw [List.map_map, pointMean_apply, List.length_map]
  have key : ∀ (F G : ℝ × ℝ → ℝ) (c : ℝ), (∀ p, F p = G p) → 1 / c * (ps.map F).sum = (ps.map G).sum / c := by
    intro F G c h
    rw [funext h]
    ring
  ext i j
  rw [Matrix.smul_apply, list_sum_mat, smul_eq_mul]
  fin_cases i <;> fin_cases j <;> refine key _ _ _ (fun p => ?_) <;> simp [vec2, vecMulVec_apply] <;> ring

theorem bandwidth_eq (ps : List (ℝ × ℝ)) : bandwidth (ps.map vec2) =
    !![(sampleCov ps).1 * ((ps.length : ℝ) ^ (-(1 : ℝ) / 6)) ^ 2, (sampleCov ps).2.1 * ((ps.length : ℝ) ^ (-(1 : ℝ) / 6)) ^ 2;
      (sampleCov ps).2.1 * ((ps.length : ℝ) ^ (-(1 : ℝ) / 6)) ^ 2, (sampleCov ps).2.2 * ((ps.length : ℝ) ^ (-(1 : ℝ) / 6)) ^ 2] := by
  unfold bandwidth
  rw [sampleCov_eq, List.length_map]
  ext i j
  fin_cases i <;> fin_cases j <;> simp [mul_comm]

theorem planeDensity_eq (mean x : Fin 2 → ℝ) {a b d : ℝ} (hdet : 0 < a * d - b * b) : planeDensity mean !![a, b; b, d] x =
    Real.exp (-((d * (x 0 - mean 0) * (x 0 - mean 0) - 2 * b * (x 0 - mean 0) * (x 1 - mean 1) + a * (x 1 - mean 1) * (x 1 - mean 1)) / (a * d - b * b)) / 2) /
      (2 * Real.pi * Real.sqrt (a * d - b * b)) := by
  unfold planeDensity
  have hd : (!![a, b; b, d] : Matrix (Fin 2) (Fin 2) ℝ).det = a * d - b * b := by rw [Matrix.det_fin_two_of]
  congr 1
  · congr 1
    rw [Matrix.inv_def, hd, Ring.inverse_eq_inv', Matrix.adjugate_fin_two_of]
    simp [dotProduct, Matrix.mulVec, Fin.sum_univ_two]
    field_simp
    ring
  · rw [Matrix.det_smul, hd, Fintype.card_fin, Real.sqrt_mul (by positivity), Real.sqrt_sq (by positivity)]

theorem gaussianKde_eq (ps : List (ℝ × ℝ)) :
    (NotDegenerate (ps.map vec2) → gaussianKde ps = some (fun x y => kernelDensity (ps.map vec2) ![x, y])) ∧ (¬NotDegenerate (ps.map vec2) → gaussianKde ps = none) := by
  have hdet : (pointCovariance (ps.map vec2)).det = (sampleCov ps).1 * (sampleCov ps).2.2 - (sampleCov ps).2.1 * (sampleCov ps).2.1 := by rw [sampleCov_eq, Matrix.det_fin_two_of]
  unfold NotDegenerate
  rw [hdet]
  have hf : 0 ≤ ((ps.length : ℝ) ^ (-(1 : ℝ) / 6)) := by positivity
  have hscale : (sampleCov ps).1 * ((ps.length : ℝ) ^ (-(1 : ℝ) / 6)) ^ 2 * ((sampleCov ps).2.2 * ((ps.length : ℝ) ^ (-(1 : ℝ) / 6)) ^ 2) -
      (sampleCov ps).2.1 * ((ps.length : ℝ) ^ (-(1 : ℝ) / 6)) ^ 2 * ((sampleCov ps).2.1 * ((ps.length : ℝ) ^ (-(1 : ℝ) / 6)) ^ 2) =
      ((ps.length : ℝ) ^ (-(1 : ℝ) / 6)) ^ 4 * ((sampleCov ps).1 * (sampleCov ps).2.2 - (sampleCov ps).2.1 * (sampleCov ps).2.1) := by ring
  constructor
  · intro h
    have hne : ps ≠ [] := by
      rintro rfl
      simp [sampleCov] at h
    have hlen : (0 : ℝ) < ps.length := by exact_mod_cast List.length_pos_of_ne_nil hne
    have hpos : 0 < ((ps.length : ℝ) ^ (-(1 : ℝ) / 6)) := Real.rpow_pos_of_pos hlen _
    have hd : 0 < (sampleCov ps).1 * ((ps.length : ℝ) ^ (-(1 : ℝ) / 6)) ^ 2 * ((sampleCov ps).2.2 * ((ps.length : ℝ) ^ (-(1 : ℝ) / 6)) ^ 2) -
        (sampleCov ps).2.1 * ((ps.length : ℝ) ^ (-(1 : ℝ) / 6)) ^ 2 * ((sampleCov ps).2.1 * ((ps.length : ℝ) ^ (-(1 : ℝ) / 6)) ^ 2) := by
      rw [hscale]
      positivity
    unfold gaussianKde
    simp only []
    rw [if_pos hd]
    congr 1
    funext x y
    unfold kernelDensity
    rw [List.length_map, List.map_map, bandwidth_eq]
    congr 1
    have : ∀ (l : List (ℝ × ℝ)) (F : ℝ × ℝ → ℝ) (c : ℝ), (l.map F).sum / c = (l.map (fun p => F p / c)).sum := by
      intro l F c
      induction l with
      | nil => simp
      | cons a as ih => rw [List.map_cons, List.sum_cons, add_div, ih, List.map_cons, List.sum_cons]
    rw [this]
    congr 1
    refine List.map_congr_left (fun p _ => ?_)
    rw [Function.comp_apply, planeDensity_eq _ _ hd]
    simp [vec2]
  · intro h
    unfold gaussianKde
    simp only []
    rw [if_neg]
    rw [hscale]
    intro h'
    exact h (pos_of_mul_pos_right h' (by positivity))

/-! ### the grid -/

theorem listMin_least {l : List ℝ} (h : l ≠ []) : IsLeast {x | x ∈ l} (listMin l) := by
  obtain ⟨a, as, rfl⟩ := List.exists_cons_of_ne_nil h
  obtain ⟨a1, a2, a3⟩ := foldl_min_le as a
  refine ⟨?_, ?_⟩
  · exact a3
  · intro x hx
    rcases List.mem_cons.mp hx with rfl | hx
    · exact a1
    · exact a2 x hx

theorem listMax_greatest {l : List ℝ} (h : l ≠ []) : IsGreatest {x | x ∈ l} (listMax l) := by
  obtain ⟨a, as, rfl⟩ := List.exists_cons_of_ne_nil h
  obtain ⟨a1, a2, a3⟩ := le_foldl_max as a
  refine ⟨?_, ?_⟩
  · exact a3
  · intro x hx
    rcases List.mem_cons.mp hx with rfl | hx
    · exact a1
    · exact a2 x hx

theorem gridOf_linspace {l : List ℝ} (h : l ≠ []) (n : ℕ) : GridOf l n (linspace (listMin l) (listMax l) n) :=
  ⟨linspace_length _ _ _, _, _, listMin_least h, listMax_greatest h, linspace_even _ _ _⟩

/-- The values of a pair of factors in some rows. -/
def PairValues (rows : List PlotRow) (pair : String × String) (ps : List (Fin 2 → ℝ)) : Prop :=
  List.Forall₂ (fun r p => r.value pair.1 = some (p 0) ∧ r.value pair.2 = some (p 1)) rows ps

theorem pairValues_mapM {rows : List PlotRow} {pair : String × String} {ps : List (Fin 2 → ℝ)} (h : PairValues rows pair ps) :
    rows.mapM (fun r => do
      let x ← r.value pair.1
      let y ← r.value pair.2
      some (x, y)) = some (ps.map (fun p => (p 0, p 1))) := by
  induction h with
  | nil => rfl
  | cons hab _ ih =>
    rw [List.mapM_cons, ih, hab.1, hab.2]
    rfl

theorem map_vec2 (ps : List (Fin 2 → ℝ)) : (ps.map (fun p => (p 0, p 1))).map vec2 = ps := by
  rw [List.map_map]
  refine (List.map_congr_left (fun p _ => ?_)).trans (List.map_id _)
  funext i
  fin_cases i <;> rfl

theorem notDegenerate_ne {ps : List (Fin 2 → ℝ)} (h : NotDegenerate ps) : ps ≠ [] := by
  rintro rfl
  simp [NotDegenerate, pointCovariance] at h

theorem calculateKde_spec {columns : List String} {rows : List PlotRow} {pair : String × String} {ps : List (Fin 2 → ℝ)} (hc : pair.1 ∈ columns ∧ pair.2 ∈ columns) (h : PairValues rows pair ps) (n : ℕ) :
    (NotDegenerate ps → ∃ g, calculateKde columns rows pair n = some g ∧ GridOf (ps.map (fun p => p 0)) n g.xs ∧ GridOf (ps.map (fun p => p 1)) n g.ys ∧
      g.zz = g.xs.map (fun x => g.ys.map (fun y => kernelDensity ps ![x, y]))) ∧
    (¬NotDegenerate ps → calculateKde columns rows pair n = none) := by
  unfold calculateKde
  rw [if_pos hc, pairValues_mapM h]
  obtain ⟨k1, k2⟩ := gaussianKde_eq (ps.map (fun p => (p 0, p 1)))
  rw [map_vec2] at k1 k2
  constructor
  · intro hd
    have hne := notDegenerate_ne hd
    refine ⟨⟨linspace (listMin (ps.map (fun p => p 0))) (listMax (ps.map (fun p => p 0))) n, linspace (listMin (ps.map (fun p => p 1))) (listMax (ps.map (fun p => p 1))) n,
      (linspace (listMin (ps.map (fun p => p 0))) (listMax (ps.map (fun p => p 0))) n).map (fun x =>
        (linspace (listMin (ps.map (fun p => p 1))) (listMax (ps.map (fun p => p 1))) n).map (fun y => kernelDensity ps ![x, y]))⟩, ?_, ?_, ?_, rfl⟩
    · show Option.bind (gaussianKde _) _ = _
      rw [k1 hd]
      simp only [Option.bind_some, List.map_map, Function.comp_def]
    · exact gridOf_linspace (by simpa using hne) n
    · exact gridOf_linspace (by simpa using hne) n
  · intro hd
    show Option.bind (gaussianKde _) _ = _
    rw [k2 hd]
    rfl

theorem calculateKde_missing {columns : List String} {rows : List PlotRow} {pair : String × String} (h : ∃ r ∈ rows, r.value pair.1 = none ∨ r.value pair.2 = none) (n : ℕ) :
    calculateKde columns rows pair n = none := by
  unfold calculateKde
  split_ifs with hc
  · have : rows.mapM (fun r => do
        let x ← r.value pair.1
        let y ← r.value pair.2
        some (x, y)) = none := by
      induction rows with
      | nil => obtain ⟨r, hr, _⟩ := h; cases hr
      | cons a as ih =>
        rw [List.mapM_cons]
        obtain ⟨r, hr, hv⟩ := h
        rcases List.mem_cons.mp hr with rfl | hr
        · rcases hv with hv | hv
          · rw [hv]; rfl
          · rw [hv]
            cases r.value pair.1 <;> rfl
        · rw [ih ⟨r, hr, hv⟩]
          cases a.value pair.1 <;> cases a.value pair.2 <;> rfl
    rw [this]
    rfl
  · rfl

theorem zz_entry {xs ys : List ℝ} {F : ℝ → ℝ → ℝ} {i j : ℕ} {x y : ℝ} (hx : xs[i]? = some x) (hy : ys[j]? = some y) : entry2 (xs.map (fun x => ys.map (fun y => F x y))) i j = some (F x y) := by
  unfold entry2
  rw [List.getElem?_map, hx, Option.map_some, Option.bind_some, List.getElem?_map, hy, Option.map_some]

/-! ### scenarios -/

theorem foldl_blocks {β : Type} [DecidableEq β] (blocks : List (β × ℕ)) (acc : List β) (hn : (blocks.map Prod.fst).Nodup) (hpos : ∀ b ∈ blocks, 0 < b.2) (hd : ∀ b ∈ blocks, b.1 ∉ acc) :
    (blocks.flatMap (fun b => List.replicate b.2 b.1)).foldl (fun acc s => if s ∈ acc then acc else acc ++ [s]) acc = acc ++ blocks.map Prod.fst := by
  induction blocks generalizing acc with
  | nil => simp
  | cons b bs ih =>
    rw [List.map_cons, List.nodup_cons] at hn
    have hrep : ∀ k acc, b.1 ∈ acc → (List.replicate k b.1).foldl (fun acc s => if s ∈ acc then acc else acc ++ [s]) acc = acc := by
      intro k acc h
      induction k with
      | zero => rfl
      | succ k ihk => rw [List.replicate_succ, List.foldl_cons, if_pos h, ihk]
    obtain ⟨k, hk⟩ : ∃ k, b.2 = k + 1 := ⟨b.2 - 1, by have := hpos b List.mem_cons_self; omega⟩
    rw [List.flatMap_cons, List.foldl_append, hk, List.replicate_succ, List.foldl_cons, if_neg (hd b List.mem_cons_self), hrep k _ (by simp),
      ih _ hn.2 (fun b' hb' => hpos b' (List.mem_cons_of_mem _ hb')), List.append_assoc]
    · rfl
    · intro b' hb'
      rw [List.mem_append, List.mem_singleton]
      rintro (h | h)
      · exact hd b' (List.mem_cons_of_mem _ hb') h
      · exact hn.1 (List.mem_map.mpr ⟨b', hb', h⟩)

/-- The rows of one scenario. -/
def scenarioBlock (t : ℕ) (nd : String × PlotStatesFrame) : List PlotRow := (nd.2.rows.filter (fun r => r.period == t)).map (fun r => { scenario := some nd.1, value := r.values })

theorem plotStatesFrame_ok {states : PlotStatesArg} {t : ℕ} {fs : List String} (hne : fs ≠ []) (hs : scenariosOf states ≠ []) (hcols : ∀ s ∈ scenariosOf states, ∀ f ∈ fs, f ∈ s.2.columns) :
    plotStatesFrame states t fs = .ok { columns := fs, rows := (scenariosOf states).flatMap (scenarioBlock t) } := by
  cases states with
  | frame df =>
    have hf : fs.filter (fun f => decide (f ∈ df.columns)) = fs := by
      rw [List.filter_eq_self]
      intro f hf
      exact decide_eq_true (hcols ("none", df) (List.mem_singleton.mpr rfl) f hf)
    unfold plotStatesFrame
    simp only [hf, if_neg hne]
    simp [scenariosOf, scenarioBlock]
  | scenarios dfs =>
    unfold plotStatesFrame
    simp only []
    rw [mapM_pure_ok _ (scenarioBlock t) dfs (fun nd hnd => by
      rw [if_pos (hcols nd hnd)]
      rfl)]
    have hne' : dfs.map (scenarioBlock t) ≠ [] := by
      intro h
      rw [List.map_eq_nil_iff] at h
      exact hs h
    simp only [bind, Except.bind, if_neg hne', List.flatMap_def, scenariosOf]

theorem plotScenarios_eq {cols : List String} {t : ℕ} {sc : List (String × PlotStatesFrame)} (hn : (sc.map Prod.fst).Nodup) (hrows : ∀ s ∈ sc, scenarioBlock t s ≠ []) :
    plotScenarios { columns := cols, rows := sc.flatMap (scenarioBlock t) } = sc.map (fun s => some s.1) := by
  unfold plotScenarios
  simp only [List.map_flatMap]
  have : ∀ s : String × PlotStatesFrame, (scenarioBlock t s).map (fun r => r.scenario) = List.replicate (scenarioBlock t s).length (some s.1) := by
    intro s
    unfold scenarioBlock
    rw [List.map_map, List.length_map]
    simp [Function.comp_def]
  simp only [this]
  have hb := foldl_blocks (sc.map (fun s => (some s.1, (scenarioBlock t s).length))) [] (by
      rw [List.map_map]
      have : (Prod.fst ∘ fun s : String × PlotStatesFrame => (some s.1, (scenarioBlock t s).length)) = some ∘ Prod.fst := rfl
      rw [this, ← List.map_map]
      exact hn.map (Option.some_injective _)) (by
      intro b hb
      obtain ⟨s, hs, rfl⟩ := List.mem_map.mp hb
      exact List.length_pos_of_ne_nil (hrows s hs)) (by simp)
  rw [List.flatMap_map, List.nil_append, List.map_map] at hb
  convert hb
  rfl

theorem scenarioRows_eq {cols : List String} {t : ℕ} {sc : List (String × PlotStatesFrame)} (hn : (sc.map Prod.fst).Nodup) {s : String × PlotStatesFrame} (hs : s ∈ sc) :
    scenarioRows { columns := cols, rows := sc.flatMap (scenarioBlock t) } (some s.1) = scenarioBlock t s := by
  unfold scenarioRows
  simp only []
  induction sc with
  | nil => cases hs
  | cons a as ih =>
    rw [List.map_cons, List.nodup_cons] at hn
    have hblock : ∀ b : String × PlotStatesFrame, (scenarioBlock t b).filter (fun r => (some s.1).isSome && decide (r.scenario = some s.1)) = if b.1 = s.1 then scenarioBlock t b else [] := by
      intro b
      split_ifs with h
      · rw [List.filter_eq_self]
        intro r hr
        obtain ⟨_, _, rfl⟩ := List.mem_map.mp hr
        simp [h]
      · rw [List.filter_eq_nil_iff]
        intro r hr
        obtain ⟨_, _, rfl⟩ := List.mem_map.mp hr
        simp [h]
    rw [List.flatMap_cons, List.filter_append, hblock]
    rcases List.mem_cons.mp hs with rfl | hs'
    · rw [if_pos rfl]
      have : (as.flatMap (scenarioBlock t)).filter (fun r => (some s.1).isSome && decide (r.scenario = some s.1)) = [] := by
        rw [List.filter_eq_nil_iff]
        intro r hr
        obtain ⟨b, hb, hr⟩ := List.mem_flatMap.mp hr
        obtain ⟨_, _, rfl⟩ := List.mem_map.mp hr
        have : b.1 ≠ s.1 := fun h => hn.1 (List.mem_map.mpr ⟨b, hb, h⟩)
        simp [this]
      rw [this, List.append_nil]
    · have : a.1 ≠ s.1 := fun h => hn.1 (List.mem_map.mpr ⟨s, hs', h.symm⟩)
      rw [if_neg this, List.nil_append]
      exact ih hn.2 hs'

theorem sample_pairValues {t : ℕ} {s : String × PlotStatesFrame} {pair : String × String} {ps : List (Fin 2 → ℝ)} (h : SampleIs s.2.rows t pair ps) : PairValues (scenarioBlock t s) pair ps := by
  unfold PairValues scenarioBlock
  rw [List.forall₂_map_left_iff]
  exact h

end Skill
