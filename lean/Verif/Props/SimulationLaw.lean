import Verif.Lemmas.SimulationPath
import Verif.Lemmas.DrawSelection
import Verif.Lemmas.FilterPrefix
/-
C69: the likelihood function is the density of the data that simulate_dataset generates.
-/
namespace Skill
open Matrix MeasureTheory ProbabilityTheory Spec
variable {nObs nMix n nT nObserved nC : ℕ} {θ : Type}

/-- Blocks of draws: start states, shocks of each transition, measurement errors of each period. -/
abbrev Block (nT : ℕ) := Unit ⊕ Fin (nT + 1) ⊕ Fin (nT + 2)

/-- The updates of a period. -/
abbrev rowsOf (rows : List (UpdateParams n nC)) (t : Nat) : List (UpdateParams n nC) := rows.filter (fun r => r.period == t)

def blockSize (nT : ℕ) (rows : List (UpdateParams n nC)) : Block nT → ℕ
  | .inl _ => n
  | .inr (.inl _) => n
  | .inr (.inr t) => (rowsOf rows t).length

/-- The matrices by which the draws are multiplied: in simulate_dataset (`root`). -/
noncomputable def rootBlocks (root : NormalRoot) (fixed : ScanFixed nObs nT n nObserved nC θ) (rows : List (UpdateParams n nC)) (U : Matrix (Fin n) (Fin n) ℝ) :
    (b : Block nT) → Matrix (Fin (blockSize nT rows b)) (Fin (blockSize nT rows b)) ℝ
  | .inl _ => root n (Uᵀ * U)
  | .inr (.inl t) => root n (diagonal (fun f => fixed.shockSds (jaxIndex nT t.val) f ^ 2))
  | .inr (.inr t) => root (rowsOf rows t).length (diagonal (fun k => ((rowsOf rows t).get k).sd ^ 2))

/-- ... and in the state space model. -/
noncomputable def diagBlocks (fixed : ScanFixed nObs nT n nObserved nC θ) (rows : List (UpdateParams n nC)) (U : Matrix (Fin n) (Fin n) ℝ) :
    (b : Block nT) → Matrix (Fin (blockSize nT rows b)) (Fin (blockSize nT rows b)) ℝ
  | .inl _ => Uᵀ
  | .inr (.inl t) => diagonal (fixed.shockSds (jaxIndex nT t.val))
  | .inr (.inr t) => diagonal (fun k => ((rowsOf rows t).get k).sd)

theorem blocks_gram {root : NormalRoot} (hroot : ValidRoot root) (fixed : ScanFixed nObs nT n nObserved nC θ) (rows : List (UpdateParams n nC)) (U : Matrix (Fin n) (Fin n) ℝ) (b : Block nT) :
    rootBlocks root fixed rows U b * (rootBlocks root fixed rows U b)ᵀ = diagBlocks fixed rows U b * (diagBlocks fixed rows U b)ᵀ := by
  have hdiag : ∀ {k : ℕ} (s : Fin k → ℝ), (diagonal (fun f => s f ^ 2)).PosSemidef := fun s => PosSemidef.diagonal (fun f => sq_nonneg _)
  have hd : ∀ {k : ℕ} (s : Fin k → ℝ), root k (diagonal (fun f => s f ^ 2)) * (root k (diagonal (fun f => s f ^ 2)))ᵀ = diagonal s * (diagonal s)ᵀ := by
    intro k s
    rw [hroot _ _ (hdiag _), diagonal_transpose, diagonal_mul_diagonal]
    simp only [pow_two]
  rcases b with u | t | t
  · simp only [rootBlocks, diagBlocks]
    refine hroot _ _ ?_
    have := posSemidef_conjTranspose_mul_self U
    rwa [conjTranspose_eq_transpose_of_trivial] at this
  · exact hd _
  · exact hd _

/-- The noise of the transitions. -/
noncomputable def shockNoise {rows : List (UpdateParams n nC)} (w : (Σ b : Block nT, Fin (blockSize nT rows b)) → ℝ) (t : Nat) (f : Fin n) : ℝ :=
  if h : t < nT + 1 then w ⟨.inr (.inl ⟨t, h⟩), f⟩ else 0

theorem pathStates_congr (fixed : ScanFixed nObs nT n nObserved nC θ) (i : Fin nObs) (x : Fin n → ℝ) {w w' : Nat → Fin n → ℝ} {t : Nat} (h : ∀ s < t, w s = w' s) :
    pathStates fixed i x w t = pathStates fixed i x w' t := by
  induction t with
  | zero => rfl
  | succ t ih =>
    funext f
    rw [pathStates, pathStates, ih (fun s hs => h s (by omega)), h t (by omega)]

theorem measurable_unanchored {fixed : ScanFixed nObs nT n nObserved nC θ} (h : AffineTransitions fixed) (i : Fin nObs) (t : Int) : Measurable (unanchoredTransition fixed i t) := by
  obtain ⟨A, b, hA⟩ := h (jaxIndex nT t)
  obtain ⟨d, hd⟩ := unanchored_affine i t hA
  rw [hd]
  refine Measurable.add_const ?_ _
  exact (Continuous.matrix_mulVec continuous_const continuous_id).measurable

theorem measurable_path {fixed : ScanFixed nObs nT n nObserved nC θ} (h : AffineTransitions fixed) (i : Fin nObs) {Ω : Type} [MeasurableSpace Ω] {x : Ω → Fin n → ℝ} (hx : Measurable x)
    {w : Ω → Nat → Fin n → ℝ} (hw : ∀ t, Measurable (fun ω => w ω t)) (t : Nat) : Measurable (fun ω => pathStates fixed i (x ω) (w ω) t) := by
  induction t with
  | zero => exact hx
  | succ t ih =>
    rw [measurable_pi_iff]
    intro f
    exact ((measurable_pi_apply f).comp ((measurable_unanchored h i t).comp ih)).add ((measurable_pi_apply f).comp (hw t))

section
variable {fixed : ScanFixed nObs nT n nObserved nC θ} {rows : List (UpdateParams n nC)} {K : ℕ} (row : Fin K → UpdateParams n nC) (hp : ∀ k, (row k).period < nT + 2)
  (pos : (k : Fin K) → Fin (rowsOf rows (row k).period).length) (obs : Fin K → Bool)

/-- The data of an individual for given noise. -/
noncomputable def noiseData (fixed : ScanFixed nObs nT n nObserved nC θ) (i : Fin nObs) (m : Fin n → ℝ) (w : (Σ b : Block nT, Fin (blockSize nT rows b)) → ℝ) : Fin K → ℝ := fun k =>
  if obs k then (row k).loadings ⬝ᵥ pathStates fixed i (m + fun f : Fin n => w ⟨.inl (), f⟩) (shockNoise w) (row k).period
    + fixed.controls (jaxIndex (nT + 1) (row k).period) i ⬝ᵥ (row k).controlParams + w ⟨.inr (.inr ⟨(row k).period, hp k⟩), pos k⟩ else 0

theorem measurable_noiseData (h : AffineTransitions fixed) (i : Fin nObs) (m : Fin n → ℝ) : Measurable (noiseData row hp pos obs fixed i m) := by
  rw [measurable_pi_iff]
  intro k
  unfold noiseData
  have hst : Measurable (fun w : (Σ b : Block nT, Fin (blockSize nT rows b)) → ℝ => m + fun f : Fin n => w ⟨.inl (), f⟩) := by
    refine Measurable.const_add ?_ _
    exact measurable_pi_iff.mpr (fun f => measurable_pi_apply _)
  have hsh : ∀ t, Measurable (fun w : (Σ b : Block nT, Fin (blockSize nT rows b)) → ℝ => shockNoise w t) := by
    intro t
    rw [measurable_pi_iff]
    intro f
    unfold shockNoise
    split_ifs with ht
    · exact measurable_pi_apply _
    · exact measurable_const
  split_ifs
  · refine (Measurable.add_const ?_ _).add (measurable_pi_apply _)
    simp only [dotProduct]
    exact Finset.measurable_fun_sum _ (fun f _ => ((measurable_pi_apply f).comp (measurable_path h i hst hsh _)).const_mul _)
  · exact measurable_const

/-- The draws that are used by the simulation. -/
def drawIndex : (Σ b : Block nT, Fin (blockSize nT rows b)) → DrawIndex n
  | ⟨.inl _, f⟩ => .start f
  | ⟨.inr (.inl t), f⟩ => .shock t f
  | ⟨.inr (.inr t), j⟩ => .error t j

theorem drawIndex_injective : Function.Injective (drawIndex (nT := nT) (rows := rows)) := by
  rintro ⟨u | t | t, f⟩ ⟨u' | t' | t', f'⟩ h
  · injection h with h1
    cases u; cases u'
    exact congrArg _ h1
  · cases h
  · cases h
  · cases h
  · injection h with h1 h2
    obtain rfl := Fin.ext h1
    exact congrArg _ h2
  · cases h
  · cases h
  · cases h
  · injection h with h1 h2
    obtain rfl := Fin.ext h1
    obtain rfl := Fin.ext h2
    rfl

/-- simulate_dataset in terms of the noise. -/
theorem simulated_noise (root : NormalRoot) {factors : Fin n → String} (hinj : Function.Injective factors) (hu : (rows.map (fun r => (r.period, r.var))).Nodup)
    (hpos : ∀ k, (rowsOf rows (row k).period).get (pos k) = row k)
    {means : Fin nMix → Fin n → ℝ} {upperChols : Fin nMix → Matrix (Fin n) (Fin n) ℝ} {i : Fin nObs} {e : Fin nMix} {z : DrawIndex n → ℝ} {s : Simulated n}
    (h : simulateIndividual root fixed rows factors [] means upperChols i (drawsOf e z) = .ok s) (k : Fin K) :
    (if obs k then valueOf s (row k).period (row k).var else 0) =
      noiseData row hp pos obs fixed i (means e) (blockMul (rootBlocks root fixed rows (upperChols e)) (fun a => z (drawIndex a))) k := by
  have hu' : ((rowsOf rows (row k).period).map (fun r => r.var)).Nodup := by
    have h1 : ((rowsOf rows (row k).period).map (fun r => (r.period, r.var))).Nodup := hu.sublist (List.filter_sublist.map _)
    refine List.Nodup.of_map (fun v => ((row k).period, v)) ?_
    rw [List.map_map]
    refine (List.map_congr_left (fun r hr => ?_)).symm ▸ h1
    simp only [List.mem_filter, beq_iff_eq] at hr
    simp only [Function.comp, hr.2]
  have hv := simulated_value root hinj h (hp k) hu' (pos k)
  rw [hpos k] at hv
  unfold noiseData
  split_ifs
  · rw [hv]
    congr 3
    refine pathStates_congr fixed i _ (fun s hs => ?_)
    funext f
    unfold shockNoise
    rw [dif_pos (by have := hp k; omega)]
    rfl
  · rfl

/-- The simulated data as a function of the mixture element and the standard normal draws. -/
noncomputable def drawData (root : NormalRoot) (fixed : ScanFixed nObs nT n nObserved nC θ) (i : Fin nObs) (means : Fin nMix → Fin n → ℝ) (upperChols : Fin nMix → Matrix (Fin n) (Fin n) ℝ)
    (x : Fin nMix × ((Σ b : Block nT, Fin (blockSize nT rows b)) → ℝ)) : Fin K → ℝ :=
  noiseData row hp pos obs fixed i (means x.1) (blockMul (rootBlocks root fixed rows (upperChols x.1)) x.2)

theorem measurable_drawData (h : AffineTransitions fixed) (root : NormalRoot) (i : Fin nObs) (means : Fin nMix → Fin n → ℝ) (upperChols : Fin nMix → Matrix (Fin n) (Fin n) ℝ) :
    Measurable (drawData row hp pos obs root fixed i means upperChols) := by
  refine measurable_from_prod_countable_right (fun e => ?_)
  exact (measurable_noiseData row hp pos obs h i (means e)).comp (measurable_blockMul (rootBlocks root fixed rows (upperChols e)))

end

/-- The data and the states of the state space model in terms of the noise: `g` says which draw is used for which number. -/
theorem noise_selection {fixed : ScanFixed nObs nT n nObserved nC θ} {rows : List (UpdateParams n nC)} (hrows : GoodRows nT rows) {data : List (Fin nObs → Option ℝ)}
    (hd : data.length = rows.length) (i : Fin nObs) {steps : List (Step n)} (hsteps : steps = (loopArgs (nT + 1) rows data).map (stepOf fixed i))
    (row : Fin steps.length → UpdateParams n nC) (hrow : ∀ k, rows[k.val]? = some (row k)) (hp : ∀ k, (row k).period < nT + 2)
    (pos : (k : Fin steps.length) → Fin (rowsOf rows (row k).period).length) (hpos : ∀ k, (rowsOf rows (row k).period).get (pos k) = row k)
    (obs : Fin steps.length → Bool) (hobs : ∀ k, ∃ y, data[k.val]? = some y ∧ obs k = (y i).isSome) :
    ∃ g : (Σ b : Block nT, Fin (blockSize nT rows b)) → Fin n ⊕ Fin steps.length ⊕ Fin steps.length × Fin n, Function.Injective g ∧
      ∀ (m : Fin n → ℝ) (U : Matrix (Fin n) (Fin n) ℝ) (d : (Fin n → ℝ) × (Fin steps.length → ℝ × (Fin n → ℝ))) (w : (Σ b : Block nT, Fin (blockSize nT rows b)) → ℝ),
        w = blockMul (diagBlocks fixed rows U)
          (fun a => (Sum.elim d.1 (Sum.elim (fun k => (d.2 k).1) (fun kf : Fin steps.length × Fin n => (d.2 kf.1).2 kf.2)) : Fin n ⊕ Fin steps.length ⊕ Fin steps.length × Fin n → ℝ) (g a)) →
        simulate steps (m + Uᵀ *ᵥ d.1) d.2 = noiseData row hp pos obs fixed i m w ∧
        ∀ (k : ℕ) (r : UpdateParams n nC), rows[k]? = some r →
          stateAt steps (m + Uᵀ *ᵥ d.1) (shocksOf d.2) k = pathStates fixed i (m + fun f : Fin n => w ⟨.inl (), f⟩) (shockNoise w) r.period := by
  have hsim : ∀ (x : Fin n → ℝ) (d : Fin steps.length → ℝ × (Fin n → ℝ)) (η w : Nat → Fin n → ℝ) (_ : ∀ k, η k.val = (d k).2) {last : Nat → Nat}
    (_ : ∀ t ≤ nT, ∃ r, rows[last t]? = some r ∧ r.period = t ∧ ∀ (j : Nat) r', last t < j → rows[j]? = some r' → r'.period ≠ t)
    (_ : ∀ t ≤ nT, ∀ f, w t f = fixed.shockSds (jaxIndex nT t) f * η (last t) f) (k : Fin steps.length)
    {r : UpdateParams n nC} (_ : rows[k.val]? = some r) {y : Fin nObs → Option ℝ} (_ : data[k.val]? = some y),
    simulate steps x d k = if (y i).isSome then
      r.loadings ⬝ᵥ pathStates fixed i x w r.period + fixed.controls (jaxIndex (nT + 1) r.period) i ⬝ᵥ r.controlParams + r.sd * (d k).1 else 0 := by
    subst hsteps
    intro x d η w h1 last h2 h3 k r h4 y h5
    exact simulate_rows hrows hd i x d η w h1 h2 h3 k h4 h5
  have hK : steps.length = rows.length := by rw [hsteps, List.length_map, loopArgs_length _ _ hd]
  have hnd : rows.Nodup := List.Nodup.of_map _ hrows.unique
  -- the row of each measurement error
  have hidx : ∀ (t : Fin (nT + 2)) (j : Fin (rowsOf rows t).length), ∃ k : Fin steps.length, row k = (rowsOf rows t).get j := by
    intro t j
    have hm : (rowsOf rows t).get j ∈ rows := List.mem_of_mem_filter (List.get_mem _ _)
    obtain ⟨k, hk⟩ := List.getElem?_of_mem hm
    have hlt := (List.getElem?_eq_some_iff.mp hk).1
    refine ⟨⟨k, by omega⟩, ?_⟩
    have := hrow ⟨k, by omega⟩
    rw [hk] at this
    exact (Option.some.inj this).symm
  choose idx hidx using hidx
  have hrow_inj : ∀ k k', row k = row k' → k = k' := by
    intro k k' h
    have h1 := hrow k
    rw [h, ← hrow k'] at h1
    exact Fin.ext ((List.getElem?_inj (by omega) hnd).mp h1)
  have hperiod : ∀ (t : Nat) (r : UpdateParams n nC), r ∈ rowsOf rows t → r.period = t := by
    intro t r hr
    simp only [List.mem_filter, beq_iff_eq] at hr
    exact hr.2
  have hidx_pos : ∀ k, idx ⟨(row k).period, hp k⟩ (pos k) = k := fun k => hrow_inj _ _ (by rw [hidx]; exact hpos k)
  have hidx_inj : ∀ t j t' j', idx t j = idx t' j' → (⟨t, j⟩ : Σ t : Fin (nT + 2), Fin (rowsOf rows t).length) = ⟨t', j'⟩ := by
    intro t j t' j' h
    have h1 : (rowsOf rows t).get j = (rowsOf rows t').get j' := by rw [← hidx, ← hidx, h]
    have h2 : t = t' := by
      apply Fin.ext
      rw [← hperiod t _ (List.get_mem _ j), ← hperiod t' _ (List.get_mem _ j'), h1]
    subst h2
    have := (List.nodup_iff_injective_get.mp (hnd.filter (fun r => r.period == t.val))) h1
    rw [this]
  -- the last row of each period
  have hlast : ∀ t : Nat, ∃ k : Nat, t ≤ nT → ∃ r, rows[k]? = some r ∧ r.period = t ∧ ∀ (j : Nat) r', k < j → rows[j]? = some r' → r'.period ≠ t := by
    intro t
    by_cases ht : t ≤ nT
    · obtain ⟨r, hr, hrt⟩ := hrows.all t (by omega)
      obtain ⟨k, hk, hk'⟩ := exists_last (ps := rows.map (fun r => r.period)) (t := t) (List.mem_map.mpr ⟨r, hr, hrt⟩)
      rw [List.getElem?_map, Option.map_eq_some_iff] at hk
      obtain ⟨q, hq, hqt⟩ := hk
      refine ⟨k, fun _ => ⟨q, hq, hqt, fun j r' hj hr' => hk' j _ hj ?_⟩⟩
      rw [List.getElem?_map, hr']
      rfl
    · exact ⟨0, fun h => absurd h ht⟩
  choose last hlast using hlast
  have hlastK : ∀ t ≤ nT, last t < steps.length := by
    intro t ht
    obtain ⟨r, hr, _⟩ := hlast t ht
    rw [hK]
    exact (List.getElem?_eq_some_iff.mp hr).1
  let g : (Σ b : Block nT, Fin (blockSize nT rows b)) → Fin n ⊕ Fin steps.length ⊕ Fin steps.length × Fin n := fun a => match a with
    | ⟨.inl _, f⟩ => .inl f
    | ⟨.inr (.inl t), f⟩ => .inr (.inr (⟨last t, hlastK t (by omega)⟩, f))
    | ⟨.inr (.inr t), j⟩ => .inr (.inl (idx t j))
  have hg : Function.Injective g := by
    rintro ⟨u | t | t, f⟩ ⟨u' | t' | t', f'⟩ h
    · injection h with h1
      cases u; cases u'
      exact congrArg _ h1
    · cases h
    · cases h
    · cases h
    · injection h with h1
      injection h1 with h1
      injection h1 with h1 h2
      have h3 : last t = last t' := congrArg Fin.val h1
      have h4 : t = t' := by
        obtain ⟨r, hr, hrt, _⟩ := hlast t (by omega)
        obtain ⟨r', hr', hrt', _⟩ := hlast t' (by omega)
        rw [h3, hr'] at hr
        apply Fin.ext
        rw [← hrt, ← hrt', Option.some.inj hr]
      subst h4
      exact congrArg _ h2
    · cases h
    · cases h
    · cases h
    · injection h with h1
      injection h1 with h1
      have := hidx_inj _ _ _ _ h1
      injection this with h2 h3
      subst h2
      rw [eq_of_heq h3]
  refine ⟨g, hg, ?_⟩
  rintro m U ⟨z, d⟩ w hw
  have hη : ∀ k : Fin steps.length, shocksOf d k = (d k).2 := fun k => by rw [shocksOf, dif_pos k.isLt]
  have hsh : ∀ t ≤ nT, ∀ f, shockNoise w t f = fixed.shockSds (jaxIndex nT t) f * shocksOf d (last t) f := fun t ht f => by
    rw [shockNoise, dif_pos (by omega), shocksOf, dif_pos (hlastK t ht), hw]
    simp only [blockMul, diagBlocks]
    exact mulVec_diagonal _ _ f
  have hst : (m + fun f : Fin n => w ⟨.inl (), f⟩) = m + Uᵀ *ᵥ z := by rw [hw]; rfl
  rw [hst]
  constructor
  · funext k
    obtain ⟨y, hy, hyo⟩ := hobs k
    have h1 := hsim (m + Uᵀ *ᵥ z) d (shocksOf d) (shockNoise w) hη (last := last) hlast hsh k (hrow k) hy
    rw [h1, noiseData, hyo, hst]
    have e1 : w ⟨.inr (.inr ⟨(row k).period, hp k⟩), pos k⟩ = (row k).sd * (d k).1 := by
      have : w ⟨.inr (.inr ⟨(row k).period, hp k⟩), pos k⟩ = ((rowsOf rows (row k).period).get (pos k)).sd * (d (idx ⟨(row k).period, hp k⟩ (pos k))).1 := by
        rw [hw]
        exact mulVec_diagonal _ _ _
      rw [this, hidx_pos, hpos]
    rw [e1]
  · intro k r hr
    have h2 := stateAt_eq (fixed := fixed) hrows hd i (m + Uᵀ *ᵥ z) (shocksOf d) (shockNoise w) hlast hsh hr
    rw [← hsteps] at h2
    exact h2

/-- The law of the state space model in terms of the noise. -/
theorem dataLaw_noise {fixed : ScanFixed nObs nT n nObserved nC θ} (hlin : AffineTransitions fixed) {rows : List (UpdateParams n nC)} (hrows : GoodRows nT rows) {data : List (Fin nObs → Option ℝ)}
    (hd : data.length = rows.length) (i : Fin nObs) (m : Fin n → ℝ) (U : Matrix (Fin n) (Fin n) ℝ) {steps : List (Step n)} (hsteps : steps = (loopArgs (nT + 1) rows data).map (stepOf fixed i))
    (row : Fin steps.length → UpdateParams n nC) (hrow : ∀ k, rows[k.val]? = some (row k)) (hp : ∀ k, (row k).period < nT + 2)
    (pos : (k : Fin steps.length) → Fin (rowsOf rows (row k).period).length) (hpos : ∀ k, (rowsOf rows (row k).period).get (pos k) = row k)
    (obs : Fin steps.length → Bool) (hobs : ∀ k, ∃ y, data[k.val]? = some y ∧ obs k = (y i).isSome) :
    dataLaw m U steps =
      ((stdNormal (Σ b : Block nT, Fin (blockSize nT rows b))).map (blockMul (diagBlocks fixed rows U))).map (noiseData row hp pos obs fixed i m) := by
  obtain ⟨g, hg, hpath⟩ := noise_selection (fixed := fixed) hrows hd i hsteps row hrow hp pos hpos obs hobs
  unfold dataLaw
  rw [← map_draws_select hg, Measure.map_map (measurable_blockMul _), Measure.map_map (measurable_noiseData row hp pos obs hlin i m)]
  · congr 1
    funext d
    exact (hpath m U d _ rfl).1
  · exact (measurable_blockMul _).comp (measurable_pi_iff.mpr (fun a => (measurable_pi_apply (g a)).comp (measurable_flat _ _)))
  · exact measurable_pi_iff.mpr (fun a => (measurable_pi_apply (g a)).comp (measurable_flat _ _))

/-- **C69.** Consider a model with affine transition functions, without anchoring updates and with updates in every period, and simulate_dataset without policies. If the random number generator draws
independent standard normal numbers and mixture elements with the mixture weights, then the data of an individual (with any fixed pattern of missing measurements) has the density
exp(contribution) where contribution is the contribution of the individual to the log likelihood as a function of the measurements. So the estimator is the maximum likelihood estimator for the data
generating process of simulate_dataset. -/
theorem C69_simulation_matches_likelihood {qr : QR} (hqr : ValidQR qr) {root : NormalRoot} (hroot : ValidRoot root) {fixed : ScanFixed nObs nT n nObserved nC θ} {kappa : ℝ}
    (hk : SigmaOptions fixed kappa) (hlin : AffineTransitions fixed) (hobs : nMix = 1 ∨ nObserved = 0) {clip : ClipOptions} (hclip : clip.lower = none ∧ clip.upper = none)
    {initial : Carry nObs nMix n} (hw : ∀ i, ∑ e, Real.exp (initial.logWeights i e) = 1) {rows : List (UpdateParams n nC)} (hrows : GoodRows nT rows) (hsd : ∀ r ∈ rows, r.sd ≠ 0)
    (hmeas : ∀ r ∈ rows, r.isMeasurement = true) {factors : Fin n → String} (hinj : Function.Injective factors) {data : List (Fin nObs → Option ℝ)} (hd : data.length = rows.length) (i : Fin nObs)
    {Ω : Type} [MeasurableSpace Ω] {P : Measure Ω} [IsProbabilityMeasure P] {E : Ω → Fin nMix} {Z : DrawIndex n → Ω → ℝ}
    (hdraws : RandomDraws P (fun e => Real.exp (initial.logWeights i e)) E Z) {S : Ω → Simulated n}
    (hS : ∀ ω, simulateIndividual root fixed rows factors [] (initial.states i) (initial.upperChols i) i (drawsOf (E ω) (fun j => Z j ω)) = .ok (S ω)) :
    ∃ contribution : (Fin ((loopArgs (nT + 1) rows data).map (stepOf fixed i)).length → ℝ) → ℝ,
      (∀ y, ∃ r, logLikelihood qr fixed clip initial (fill fixed i (loopArgs (nT + 1) rows data) y) = .ok r ∧ r.contributions i = contribution y) ∧
      P.map (fun ω => simulatedData rows data i (S ω)) =
        (baseMeasure ((loopArgs (nT + 1) rows data).map (stepOf fixed i))).withDensity (fun y => ENNReal.ofReal (Real.exp (contribution y))) := by
  have hargs : ∀ a ∈ loopArgs (nT + 1) rows data, ∃ r ∈ rows, a.measSd = r.sd ∧ a.isMeasurement = r.isMeasurement := by
    intro a ha
    obtain ⟨k, hk⟩ := List.getElem?_of_mem ha
    have hlt := (List.getElem?_eq_some_iff.mp hk).1
    rw [loopArgs_length _ _ hd] at hlt
    rw [loopArgs_get _ (List.getElem?_eq_getElem hlt) (List.getElem?_eq_getElem (hd ▸ hlt))] at hk
    obtain rfl := Option.some.inj hk
    exact ⟨rows[k], List.getElem_mem hlt, rfl, rfl⟩
  obtain ⟨c, hc1, hc2⟩ := C42_exact_likelihood hqr hk hlin hobs hclip hw (args := loopArgs (nT + 1) rows data)
    (fun a ha => by obtain ⟨r, hr, h1, _⟩ := hargs a ha; rw [h1]; exact hsd r hr)
    (fun a ha => by obtain ⟨r, hr, _, h1⟩ := hargs a ha; rw [h1]; exact hmeas r hr) i
  refine ⟨c, hc1, ?_⟩
  rw [← hc2]
  generalize hsteps : (loopArgs (nT + 1) rows data).map (stepOf fixed i) = steps
  have hK : steps.length = rows.length := by rw [← hsteps, List.length_map, loopArgs_length _ _ hd]
  let row : Fin steps.length → UpdateParams n nC := fun k => rows[k.val]'(by omega)
  have hrow : ∀ k, rows[k.val]? = some (row k) := fun k => List.getElem?_eq_getElem (by omega)
  have hp : ∀ k, (row k).period < nT + 2 := fun k => by have := hrows.range _ (List.mem_of_getElem? (hrow k)); omega
  have hpos : ∀ k, ∃ j, (rowsOf rows (row k).period).get j = row k := by
    intro k
    exact List.mem_iff_get.mp (List.mem_filter.mpr ⟨List.mem_of_getElem? (hrow k), by simp⟩)
  choose pos hpos using hpos
  let obs : Fin steps.length → Bool := fun k => ((data[k.val]'(by omega)) i).isSome
  have hobs' : ∀ k, ∃ y, data[k.val]? = some y ∧ obs k = (y i).isSome := fun k => ⟨_, List.getElem?_eq_getElem (by omega), rfl⟩
  -- the simulated data in terms of the noise
  have hΦ := measurable_drawData row hp pos obs hlin root i (initial.states i) (initial.upperChols i)
  have hn : ∀ e, Measurable (noiseData row hp pos obs fixed i (initial.states i e)) := fun e => measurable_noiseData row hp pos obs hlin i _
  have hsim : (fun ω => simulatedData (K := steps.length) rows data i (S ω)) = fun ω => drawData row hp pos obs root fixed i (initial.states i) (initial.upperChols i) (E ω, fun a => Z (drawIndex a) ω) := by
    funext ω k
    obtain ⟨y, hy, hyo⟩ := hobs' k
    rw [simulatedData, hrow k, hy]
    dsimp only
    rw [← hyo]
    exact simulated_noise row hp pos obs root hinj hrows.unique hpos (hS ω) k
  have hz : Measurable (fun ω (a : Σ b : Block nT, Fin (blockSize nT rows b)) => Z (drawIndex a) ω) := measurable_pi_iff.mpr (fun a => hdraws.measurable _)
  have hjoint : P.map (fun ω => (E ω, fun a : (Σ b : Block nT, Fin (blockSize nT rows b)) => Z (drawIndex a) ω)) = (P.map E).prod (stdNormal (Σ b : Block nT, Fin (blockSize nT rows b))) := by
    have hind : IndepFun E (fun ω (a : Σ b : Block nT, Fin (blockSize nT rows b)) => Z (drawIndex a) ω) P :=
      hdraws.element_independent.comp (φ := id) (ψ := fun (z : DrawIndex n → ℝ) a => z (drawIndex a)) measurable_id (measurable_pi_iff.mpr (fun a => measurable_pi_apply _))
    rw [(indepFun_iff_map_prod_eq_prod_map_map hdraws.measurable_element.aemeasurable hz.aemeasurable).mp hind]
    congr 1
    exact map_select hdraws.measurable hdraws.normal hdraws.independent drawIndex_injective
  rw [hsim]
  have hcomp : P.map (fun ω => drawData row hp pos obs root fixed i (initial.states i) (initial.upperChols i) (E ω, fun a => Z (drawIndex a) ω)) = ((P.map E).prod (stdNormal (Σ b : Block nT, Fin (blockSize nT rows b)))).map (drawData row hp pos obs root fixed i (initial.states i) (initial.upperChols i)) := by
    rw [← hjoint, Measure.map_map hΦ (hdraws.measurable_element.prodMk hz)]
    rfl
  rw [hcomp]
  refine Measure.ext_of_lintegral _ (fun F hF => ?_)
  have : IsProbabilityMeasure (P.map E) := Measure.isProbabilityMeasure_map hdraws.measurable_element.aemeasurable
  rw [lintegral_map hF hΦ, lintegral_prod _ (show Measurable (fun a => F (drawData row hp pos obs root fixed i (initial.states i) (initial.upperChols i) a)) from hF.comp hΦ).aemeasurable, lintegral_fintype, lintegral_finsetSum_measure]
  refine Finset.sum_congr rfl (fun e _ => ?_)
  rw [lintegral_smul_measure, smul_eq_mul, mul_comm, Measure.map_apply hdraws.measurable_element (measurableSet_singleton e), hdraws.element_weights]
  congr 1
  rw [dataLaw_noise hlin hrows hd i _ _ hsteps.symm row hrow hp pos hpos obs hobs', ← map_blocks_eq _ _ (blocks_gram hroot fixed rows (initial.upperChols i e)),
    lintegral_map hF (hn e), lintegral_map (show Measurable (fun a => F (noiseData row hp pos obs fixed i (initial.states i e) a)) from hF.comp (hn e)) (measurable_blockMul _)]
  rfl

end Skill
