import Verif.Spec.Simulation
import Verif.Lemmas.ProcessModel
/- C56, C57, C68: simulate_data.py. -/
namespace Skill
open Matrix Spec
variable {nObs nMix n nT nObserved nC : ℕ} {θ : Type}

theorem policyEffect_eq (ps : List (Policy × Nat)) (draws : Nat → ℝ) (t : Nat) (factors : Fin n → String) (hinj : Function.Injective factors) {x y : Fin n → ℝ}
    (h : applyPolicies factors t draws ps x = .ok y) (f : Fin n) :
    y f = x f + ((ps.filter (fun p => decide (p.1.period = t ∧ p.1.factor = factors f))).map (fun p => p.1.effectSize + p.1.standardDeviation * draws p.2)).sum := by
  induction ps generalizing x with
  | nil => rw [← Except.ok.inj h]; simp
  | cons a ps ih =>
    obtain ⟨p, k⟩ := a
    unfold applyPolicies at h
    by_cases ht : p.period = t
    · rw [if_pos ht] at h
      cases hf : (List.finRange n).find? (fun f => factors f == p.factor) with
      | none => rw [hf] at h; cases h
      | some g =>
        rw [hf] at h
        obtain ⟨shock, hs, h⟩ := py_bind_ok.mp h
        rw [ih h]
        have hg : factors g = p.factor := by simpa using List.find?_some hf
        have hshock : shock = p.effectSize + p.standardDeviation * draws k := by
          unfold getShock at hs
          split_ifs at hs with h1 h2
          · rw [← Except.ok.inj hs, h1, zero_mul, add_zero]
          · exact (Except.ok.inj hs).symm
        rw [List.filter_cons]
        by_cases hfg : f = g
        · subst hfg
          rw [if_pos (by simp [ht, hg])]
          simp only [Function.update_self, List.map_cons, List.sum_cons, hshock]
          ring
        · rw [if_neg (by
            simp only [decide_eq_true_eq, not_and]
            intro _ hc
            exact hfg (hinj (hc.symm.trans hg.symm))), Function.update_of_ne hfg]
    · rw [if_neg ht] at h
      rw [ih h, List.filter_cons, if_neg (by simp [ht])]

theorem nextStates_eq (root : NormalRoot) (fixed : ScanFixed nObs nT n nObserved nC θ) (i : Fin nObs) (t : Nat) (x z : Fin n → ℝ) (f : Fin n) :
    nextStates root fixed i t x z f = unanchoredTransition fixed i t x f + transitionNoise root fixed t z f := by
  unfold nextStates multivariateNormal transitionNoise
  simp only [Pi.add_apply, zero_add]
  rfl

theorem simulateStates_follow (root : NormalRoot) (fixed : ScanFixed nObs nT n nObserved nC θ) {factors : Fin n → String} (hinj : Function.Injective factors) (policies : List Policy)
    (i : Fin nObs) (d : Draws nMix n) : ∀ (k t : Nat) (x : Fin n → ℝ) (xs : List (Fin n → ℝ)), t + k = nT + 1 → simulateStates root fixed factors policies i d k t x = .ok xs →
      xs.length = k + 1 ∧ (∃ y, xs[0]? = some y ∧ ∀ f, y f = x f + if t = nT + 1 then 0 else policyEffect policies d.policies t (factors f)) ∧
      ∀ (s : Nat) y z, xs[s]? = some y → xs[s + 1]? = some z → ∀ f, z f = unanchoredTransition fixed i (t + s : Nat) y f + transitionNoise root fixed (t + s) (d.shocks (t + s)) f
        + if t + s + 1 = nT + 1 then 0 else policyEffect policies d.policies (t + s + 1) (factors f) := by
  intro k
  induction k with
  | zero =>
    intro t x xs ht h
    obtain rfl := Except.ok.inj h
    refine ⟨rfl, ⟨x, rfl, fun f => by rw [if_pos (by omega), add_zero]⟩, ?_⟩
    intro s y z _ hz
    simp at hz
  | succ k ih =>
    intro t x xs ht h
    obtain ⟨x', hx', h⟩ := py_bind_ok.mp h
    obtain ⟨rest, hrest, h⟩ := py_bind_ok.mp h
    obtain rfl := Except.ok.inj h
    obtain ⟨h1, ⟨y0, hy0, hy0e⟩, h3⟩ := ih (t + 1) _ _ (by omega) hrest
    refine ⟨by simp [h1], ⟨x', rfl, fun f => ?_⟩, ?_⟩
    · rw [if_neg (by omega)]
      exact policyEffect_eq _ _ _ _ hinj hx' f
    · intro s y z hy hz f
      cases s with
      | zero =>
        simp only [List.getElem?_cons_zero, Option.some.injEq, List.getElem?_cons_succ] at hy hz
        subst hy
        rw [hy0] at hz
        obtain rfl := Option.some.inj hz
        rw [hy0e f, nextStates_eq]
        rfl
      | succ s =>
        simp only [List.getElem?_cons_succ] at hy hz
        have := h3 s y z hy hz f
        have e : t + 1 + s = t + (s + 1) := by omega
        rw [e] at this
        exact this

theorem measurements_follow (root : NormalRoot) (x : Fin n → ℝ) (controls : Fin nC → ℝ) (rows : List (UpdateParams n nC)) (z : Nat → ℝ) :
    MeasurementsFollow root x controls rows z (measurementsFromStates root x controls rows z) := by
  refine ⟨by simp [measurementsFromStates], fun k => ?_⟩
  unfold measurementsFromStates multivariateNormal
  simp [dotProduct_comm x]

/-- **C56.** The simulated states of an individual follow the transition equations of the model, with the anchored transition of the filter, and the measurements of each period are those of the
measurement equations at the simulated states, under the names of the measurements. -/
theorem C56_simulation (root : NormalRoot) {fixed : ScanFixed nObs nT n nObserved nC θ} {rows : List (UpdateParams n nC)} {factors : Fin n → String} (hinj : Function.Injective factors)
    {policies : List Policy} {means : Fin nMix → Fin n → ℝ} {upperChols : Fin nMix → Matrix (Fin n) (Fin n) ℝ} {i : Fin nObs} {d : Draws nMix n} {s : Simulated n}
    (h : simulateIndividual root fixed rows factors policies means upperChols i d = .ok s) :
    StatesFollow root fixed factors policies i d (means d.element + root n ((upperChols d.element)ᵀ * upperChols d.element) *ᵥ d.start) s.states ∧
    s.measurements.length = nT + 2 ∧
    ∀ (t : Nat) x, s.states[t]? = some x → ∃ ys, s.measurements[t]? = some ys ∧
      MeasurementsFollow root x (fixed.controls (jaxIndex (nT + 1) t) i) (rows.filter (fun r => r.period == t)) (d.errors t) ys := by
  obtain ⟨xs, hxs, h⟩ := py_bind_ok.mp h
  obtain ⟨ms, hms, h⟩ := py_bind_ok.mp h
  obtain rfl := Except.ok.inj h
  obtain ⟨h1, ⟨y, hy, hye⟩, h3⟩ := simulateStates_follow root fixed hinj policies i d (nT + 1) 0 _ _ (by omega) hxs
  unfold simulateMeasurements at hms
  rw [mapM_ok_iff] at hms
  refine ⟨⟨h1, ⟨y, hy, fun f => ?_⟩, ?_⟩, ?_, ?_⟩
  · rw [hye f, if_neg (by omega)]; rfl
  · intro t x y hx hy f
    have := h3 t x y hx hy f
    simpa only [Nat.zero_add] using this
  · rw [← hms.length_eq, List.length_zipIdx, h1]
  · intro t x hx
    obtain ⟨ys, hys, he⟩ := forall₂_getElem? hms (i := t) (x := (x, t)) (by
      have hx : xs[t]? = some x := hx
      rw [List.getElem?_zipIdx, hx]; simp)
    refine ⟨ys, hys, ?_⟩
    dsimp only at he
    split_ifs at he
    rw [← Except.ok.inj he]
    exact measurements_follow _ _ _ _ _

/-- **C56** without noise: if all draws are zero and policies have no standard deviation, then the states are the deterministic ones: start at the mean of the mixture element, add the
effects of the policies, apply the anchored transition; measurements are exactly loadings times states plus control parameters times controls. -/
theorem C56_noise_free (root : NormalRoot) {fixed : ScanFixed nObs nT n nObserved nC θ} {rows : List (UpdateParams n nC)} {factors : Fin n → String} (hinj : Function.Injective factors)
    {policies : List Policy} {means : Fin nMix → Fin n → ℝ} {upperChols : Fin nMix → Matrix (Fin n) (Fin n) ℝ} {i : Fin nObs} {e : Fin nMix} {s : Simulated n}
    (h : simulateIndividual root fixed rows factors policies means upperChols i { element := e, start := 0, shocks := fun _ => 0, errors := fun _ _ => 0, policies := fun _ => 0 } = .ok s) :
    let effect := fun (t : Nat) f => ((policies.filter (fun p => decide (p.period = t ∧ p.factor = factors f))).map (fun p => p.effectSize)).sum
    s.states.length = nT + 2 ∧ s.measurements.length = nT + 2 ∧ (∀ x, s.states[0]? = some x → x = means e + effect 0) ∧
    (∀ (t : Nat) x y, s.states[t]? = some x → s.states[t + 1]? = some y → y = unanchoredTransition fixed i t x + if t + 1 = nT + 1 then 0 else effect (t + 1)) ∧
    ∀ (t : Nat) x, s.states[t]? = some x → s.measurements[t]? = some ((rows.filter (fun r => r.period == t)).map (fun r =>
      (r.var, r.loadings ⬝ᵥ x + fixed.controls (jaxIndex (nT + 1) t) i ⬝ᵥ r.controlParams))) := by
  intro effect
  obtain ⟨⟨h1, ⟨x0, hx0, hx0e⟩, h3⟩, h4, h5⟩ := C56_simulation root hinj h
  have heff : ∀ t f, policyEffect policies (fun _ => 0) t (factors f) = effect t f := by
    intro t f
    unfold policyEffect
    simp only [mul_zero, add_zero, effect]
    have : ∀ (ps : List Policy) (k : Nat), ((ps.zipIdx k).filter (fun p => decide (p.1.period = t ∧ p.1.factor = factors f))).map (fun p => p.1.effectSize) =
        (ps.filter (fun p => decide (p.period = t ∧ p.factor = factors f))).map (fun p => p.effectSize) := by
      intro ps
      induction ps with
      | nil => intro k; rfl
      | cons p ps ih =>
        intro k
        rw [List.zipIdx_cons, List.filter_cons, List.filter_cons]
        by_cases hp : p.period = t ∧ p.factor = factors f
        · rw [if_pos (decide_eq_true hp), if_pos (decide_eq_true hp), List.map_cons, List.map_cons, ih]
        · rw [if_neg (by simpa using hp), if_neg (by simpa using hp), ih]
    rw [this policies 0]
  refine ⟨h1, h4, ?_, ?_, ?_⟩
  · intro x hx
    rw [hx0] at hx
    obtain rfl := Option.some.inj hx
    funext f
    rw [hx0e f, heff]
    simp
  · intro t x y hx hy
    funext f
    rw [h3 t x y hx hy f, heff]
    simp only [transitionNoise, mulVec_zero, Pi.zero_apply, add_zero, Pi.add_apply]
    split_ifs <;> rfl
  · intro t x hx
    obtain ⟨ys, hys, hl, hv⟩ := h5 t x hx
    rw [hys]
    congr 1
    apply List.ext_getElem?
    intro k
    by_cases hk : k < (rows.filter (fun r => r.period == t)).length
    · rw [hv ⟨k, hk⟩, List.getElem?_map, List.getElem?_eq_getElem hk]
      simp only [show (fun j : Fin (rows.filter (fun r => r.period == t)).length => (0 : ℝ)) = 0 from rfl, mulVec_zero]
      simp
    · rw [List.getElem?_eq_none (by omega), List.getElem?_eq_none (by simpa using hk)]

/-! ### C57 and C68 -/

theorem policyEffect_append (policies : List Policy) (p : Policy) (draws : Nat → ℝ) (t : Nat) (factor : String) :
    policyEffect (policies ++ [p]) draws t factor = policyEffect policies draws t factor +
      if p.period = t ∧ p.factor = factor then p.effectSize + p.standardDeviation * draws policies.length else 0 := by
  unfold policyEffect
  rw [List.zipIdx_append, List.filter_append, List.map_append, List.sum_append]
  congr 1
  simp only [List.zipIdx_cons, List.zipIdx_nil, List.filter_cons, List.filter_nil]
  split_ifs <;> simp_all

theorem Spec.StatesFollow.get {root : NormalRoot} {fixed : ScanFixed nObs nT n nObserved nC θ} {factors : Fin n → String} {policies : List Policy} {i : Fin nObs} {d : Draws nMix n}
    {start : Fin n → ℝ} {xs : List (Fin n → ℝ)} (h : StatesFollow root fixed factors policies i d start xs) {t : Nat} (ht : t < nT + 2) : ∃ x, xs[t]? = some x := by
  rw [← h.length] at ht
  exact ⟨_, List.getElem?_eq_getElem ht⟩

/-- Lists of states that follow the equations with the same effects of policies up to period `t` agree up to period `t`. -/
theorem Spec.StatesFollow.eq {root : NormalRoot} {fixed : ScanFixed nObs nT n nObserved nC θ} {factors : Fin n → String} {policies policies' : List Policy} {i : Fin nObs} {d d' : Draws nMix n}
    {start : Fin n → ℝ} {xs ys : List (Fin n → ℝ)} (hx : StatesFollow root fixed factors policies i d start xs) (hy : StatesFollow root fixed factors policies' i d' start ys)
    {t : Nat} (ht : t < nT + 2) (hs : ∀ s < t, d.shocks s = d'.shocks s)
    (he : ∀ s ≤ t, s ≤ nT → ∀ f, policyEffect policies d.policies s (factors f) = policyEffect policies' d'.policies s (factors f)) : xs[t]? = ys[t]? := by
  induction t with
  | zero =>
    obtain ⟨x, h1, h2⟩ := hx.first
    obtain ⟨y, g1, g2⟩ := hy.first
    rw [h1, g1]
    congr 1
    funext f
    rw [h2 f, g2 f, he 0 le_rfl (Nat.zero_le _) f]
  | succ t ih =>
    have ih := ih (by omega) (fun s hs' => hs s (by omega)) (fun s hs' => he s (by omega))
    obtain ⟨x, hx0⟩ := hx.get (t := t) (by omega)
    obtain ⟨x1, hx1⟩ := hx.get (t := t + 1) ht
    obtain ⟨y1, hy1⟩ := hy.get (t := t + 1) ht
    have hy0 := hx0
    rw [ih] at hy0
    rw [hx1, hy1]
    congr 1
    funext f
    rw [hx.next t x x1 hx0 hx1 f, hy.next t x y1 hy0 hy1 f, hs t (by omega)]
    split_ifs with h
    · rfl
    · rw [he (t + 1) le_rfl (by omega) f]

/-- **C57 (partial).** Compare two simulations with the same draws, the second one with an additional policy for a period before the last one. Nothing changes in earlier periods. In the period of the
policy exactly the state of its factor changes, by the effect size plus the standard deviation times its draw. What is missing: policies for the last period, for which the claim is false
(`C57_last_period_ignored`). -/
theorem C57_policy_partial (root : NormalRoot) {fixed : ScanFixed nObs nT n nObserved nC θ} {rows : List (UpdateParams n nC)} {factors : Fin n → String} (hinj : Function.Injective factors)
    {policies : List Policy} {p : Policy} (hp : p.period ≤ nT) {means : Fin nMix → Fin n → ℝ} {upperChols : Fin nMix → Matrix (Fin n) (Fin n) ℝ} {i : Fin nObs} {d : Draws nMix n} {s s' : Simulated n}
    (h : simulateIndividual root fixed rows factors policies means upperChols i d = .ok s) (h' : simulateIndividual root fixed rows factors (policies ++ [p]) means upperChols i d = .ok s') :
    (∀ t < p.period, s'.states[t]? = s.states[t]? ∧ s'.measurements[t]? = s.measurements[t]?) ∧
    ∃ x x', s.states[p.period]? = some x ∧ s'.states[p.period]? = some x' ∧
      ∀ f, x' f = x f + if p.factor = factors f then p.effectSize + p.standardDeviation * d.policies policies.length else 0 := by
  obtain ⟨h1, _, h2⟩ := C56_simulation root hinj h
  obtain ⟨g1, _, g2⟩ := C56_simulation root hinj h'
  have heq : ∀ t < p.period, s'.states[t]? = s.states[t]? := by
    intro t ht
    refine g1.eq h1 (by omega) (fun _ _ => rfl) (fun r hr _ f => ?_)
    rw [policyEffect_append, if_neg (by omega), add_zero]
  refine ⟨fun t ht => ⟨heq t ht, ?_⟩, ?_⟩
  · obtain ⟨x, hx⟩ := h1.get (t := t) (by omega)
    have hx' := hx
    rw [← heq t ht] at hx'
    obtain ⟨ys, hys, hl, hv⟩ := h2 t x hx
    obtain ⟨ys', hys', hl', hv'⟩ := g2 t x hx'
    rw [hys, hys']
    congr 1
    apply List.ext_getElem?
    intro k
    by_cases hk : k < (rows.filter (fun r => r.period == t)).length
    · rw [hv ⟨k, hk⟩, hv' ⟨k, hk⟩]
    · rw [List.getElem?_eq_none (by omega), List.getElem?_eq_none (by omega)]
  · obtain ⟨x, hx⟩ := h1.get (t := p.period) (by omega)
    obtain ⟨x', hx'⟩ := g1.get (t := p.period) (by omega)
    refine ⟨x, x', hx, hx', fun f => ?_⟩
    have hcond : (p.period = p.period ∧ p.factor = factors f) ↔ p.factor = factors f := by simp
    cases ht : p.period with
    | zero =>
      obtain ⟨y, hy, hye⟩ := h1.first
      obtain ⟨y', hy', hye'⟩ := g1.first
      rw [ht] at hx hx'
      rw [hy] at hx
      rw [hy'] at hx'
      obtain rfl := Option.some.inj hx
      obtain rfl := Option.some.inj hx'
      rw [hye, hye', policyEffect_append]
      simp only [ht, true_and]
      ring
    | succ t =>
      rw [ht] at hx hx'
      obtain ⟨y, hy⟩ := h1.get (t := t) (by omega)
      have hy' := hy
      rw [← heq t (by omega)] at hy'
      rw [h1.next t y x hy hx f, g1.next t y x' hy' hx' f, if_neg (by omega), if_neg (by omega), policyEffect_append]
      simp only [ht, true_and]
      ring

/-- C57: a policy for the last period (or a later one) has no effect at all; it is not even checked that the factor exists. -/
theorem C57_last_period_ignored (root : NormalRoot) (fixed : ScanFixed nObs nT n nObserved nC θ) (rows : List (UpdateParams n nC)) (factors : Fin n → String)
    (policies : List Policy) {p : Policy} (hp : nT + 1 ≤ p.period) (means : Fin nMix → Fin n → ℝ) (upperChols : Fin nMix → Matrix (Fin n) (Fin n) ℝ) (i : Fin nObs) (d : Draws nMix n) :
    simulateIndividual root fixed rows factors (policies ++ [p]) means upperChols i d = simulateIndividual root fixed rows factors policies means upperChols i d := by
  have happ : ∀ (ps : List (Policy × Nat)) (k t : Nat) x, t ≤ nT → applyPolicies factors t d.policies (ps ++ [(p, k)]) x = applyPolicies factors t d.policies ps x := by
    intro ps k t
    induction ps with
    | nil =>
      intro x ht
      simp only [List.nil_append, applyPolicies]
      rw [if_neg (by omega)]
    | cons a ps ih =>
      intro x ht
      obtain ⟨q, j⟩ := a
      simp only [List.cons_append, applyPolicies]
      split_ifs with h
      · cases (List.finRange n).find? (fun f => factors f == q.factor) with
        | none => rfl
        | some f => simp only [ih _ ht]
      · exact ih x ht
  have hstates : ∀ (k t : Nat) x, t + k = nT + 1 → simulateStates root fixed factors (policies ++ [p]) i d k t x = simulateStates root fixed factors policies i d k t x := by
    intro k
    induction k with
    | zero => intro t x _; rfl
    | succ k ih =>
      intro t x ht
      simp only [simulateStates, List.zipIdx_append, List.zipIdx_cons, List.zipIdx_nil]
      rw [happ _ _ _ _ (by omega)]
      congr 1
      funext x'
      rw [ih _ _ (by omega)]
  unfold simulateIndividual
  rw [hstates _ _ _ (by omega)]

/-- C68: contrary to the documentation, policies take effect in their period, and not at its end: a policy for factor f changes each measurement of its period by loading of f * effect. -/
theorem C68_same_period_measurements (root : NormalRoot) {fixed : ScanFixed nObs nT n nObserved nC θ} {rows : List (UpdateParams n nC)} {factors : Fin n → String} (hinj : Function.Injective factors)
    {policies : List Policy} {p : Policy} (hp : p.period ≤ nT) {means : Fin nMix → Fin n → ℝ} {upperChols : Fin nMix → Matrix (Fin n) (Fin n) ℝ} {i : Fin nObs} {d : Draws nMix n} {s s' : Simulated n}
    (h : simulateIndividual root fixed rows factors policies means upperChols i d = .ok s) (h' : simulateIndividual root fixed rows factors (policies ++ [p]) means upperChols i d = .ok s')
    {f : Fin n} (hf : factors f = p.factor) {k : Nat} {r : UpdateParams n nC} (hr : (rows.filter (fun r => r.period == p.period))[k]? = some r) :
    ∃ ys ys' y, s.measurements[p.period]? = some ys ∧ s'.measurements[p.period]? = some ys' ∧ ys[k]? = some (r.var, y) ∧
      ys'[k]? = some (r.var, y + r.loadings f * (p.effectSize + p.standardDeviation * d.policies policies.length)) := by
  obtain ⟨_, x, x', hx, hx', he⟩ := C57_policy_partial root hinj hp h h'
  obtain ⟨_, _, h2⟩ := C56_simulation root hinj h
  obtain ⟨_, _, g2⟩ := C56_simulation root hinj h'
  obtain ⟨ys, hys, hl, hv⟩ := h2 _ x hx
  obtain ⟨ys', hys', hl', hv'⟩ := g2 _ x' hx'
  obtain ⟨hk, hrk⟩ := List.getElem?_eq_some_iff.mp hr
  have e1 := hv ⟨k, hk⟩
  have e2 := hv' ⟨k, hk⟩
  simp only [List.get_eq_getElem, hrk] at e1 e2
  refine ⟨ys, ys', _, hys, hys', e1, ?_⟩
  rw [e2]
  congr 2
  have hx'e : x' = x + Pi.single f (p.effectSize + p.standardDeviation * d.policies policies.length) := by
    funext g
    rw [he g, Pi.add_apply]
    congr 1
    by_cases hg : g = f
    · subst hg; rw [if_pos hf.symm, Pi.single_eq_same]
    · rw [if_neg (fun hc => hg (hinj (hc.symm.trans hf.symm))), Pi.single_eq_of_ne hg]
  rw [hx'e, dotProduct_add, dotProduct_single]
  ring

/-- When the simulation succeeds: policies for periods before the last one name a latent factor and have no negative standard deviation, and each period has updates. -/
theorem C57_accepts_iff (root : NormalRoot) (fixed : ScanFixed nObs nT n nObserved nC θ) (rows : List (UpdateParams n nC)) (factors : Fin n → String)
    (policies : List Policy) (means : Fin nMix → Fin n → ℝ) (upperChols : Fin nMix → Matrix (Fin n) (Fin n) ℝ) (i : Fin nObs) (d : Draws nMix n) :
    (∃ s, simulateIndividual root fixed rows factors policies means upperChols i d = .ok s) ↔
      (∀ p ∈ policies, p.period ≤ nT → (∃ f, factors f = p.factor) ∧ 0 ≤ p.standardDeviation) ∧ ∀ t ≤ nT + 1, ∃ r ∈ rows, r.period = t := by
  have hfind : ∀ p : Policy, (∃ f, factors f = p.factor) ↔ ∃ g, (List.finRange n).find? (fun f => factors f == p.factor) = some g := by
    intro p
    rw [← Option.isSome_iff_exists, List.find?_isSome]
    simp
  have hshock : ∀ mean sd z, (∃ x, getShock mean sd z = .ok x) ↔ 0 ≤ sd := by
    intro mean sd z
    unfold getShock
    split_ifs with h1 h2
    · simp [h1]
    · exact ⟨fun _ => h2.le, fun _ => ⟨_, rfl⟩⟩
    · constructor
      · rintro ⟨x, hx⟩; cases hx
      · intro h; exact absurd (lt_of_le_of_ne h (Ne.symm h1)) h2
  have happ : ∀ (ps : List (Policy × Nat)) (t : Nat) x, (∃ y, applyPolicies factors t d.policies ps x = .ok y) ↔
      ∀ p ∈ ps, p.1.period = t → (∃ f, factors f = p.1.factor) ∧ 0 ≤ p.1.standardDeviation := by
    intro ps t
    induction ps with
    | nil => intro x; simp [applyPolicies]
    | cons a ps ih =>
      intro x
      obtain ⟨q, j⟩ := a
      simp only [applyPolicies, List.forall_mem_cons]
      by_cases ht : q.period = t
      · rw [if_pos ht]
        simp only [ht, forall_const]
        rw [hfind q]
        cases hg : (List.finRange n).find? (fun f => factors f == q.factor) with
        | none =>
          constructor
          · rintro ⟨y, hy⟩; cases hy
          · rintro ⟨⟨⟨g, hc⟩, _⟩, _⟩; cases hc
        | some g =>
          simp only [Option.some.injEq, exists_eq', true_and]
          rw [← hshock q.effectSize q.standardDeviation (d.policies j)]
          constructor
          · rintro ⟨y, hy⟩
            obtain ⟨s, hs, hy⟩ := py_bind_ok.mp hy
            exact ⟨⟨s, hs⟩, (ih _).mp ⟨y, hy⟩⟩
          · rintro ⟨⟨s, hs⟩, hrest⟩
            obtain ⟨y, hy⟩ := (ih _).mpr hrest
            exact ⟨y, py_bind_ok.mpr ⟨s, hs, hy⟩⟩
      · rw [if_neg ht, ih]
        simp [ht]
  have hstates : ∀ (k t : Nat) x, t + k = nT + 1 → ((∃ xs, simulateStates root fixed factors policies i d k t x = .ok xs) ↔
      ∀ p ∈ policies, t ≤ p.period → p.period ≤ nT → (∃ f, factors f = p.factor) ∧ 0 ≤ p.standardDeviation) := by
    have hz : ∀ (P : Policy → Prop), (∀ p ∈ policies.zipIdx, P p.1) ↔ ∀ p ∈ policies, P p := by
      intro P
      constructor
      · intro h p hp
        obtain ⟨j, hj⟩ := List.getElem?_of_mem hp
        exact h (p, j) (List.mem_zipIdx_iff_getElem?.mpr hj)
      · rintro h ⟨p, j⟩ hp
        exact h p (List.mem_of_getElem? (List.mem_zipIdx_iff_getElem?.mp hp))
    intro k
    induction k with
    | zero =>
      intro t x ht
      refine ⟨fun _ p _ h1 h2 => by omega, fun _ => ⟨_, rfl⟩⟩
    | succ k ih =>
      intro t x ht
      constructor
      · rintro ⟨xs, h⟩
        obtain ⟨x', hx', h⟩ := py_bind_ok.mp h
        obtain ⟨rest, hrest, _⟩ := py_bind_ok.mp h
        have h1 := (hz (fun p => p.period = t → (∃ f, factors f = p.factor) ∧ 0 ≤ p.standardDeviation)).mp ((happ _ _ _).mp ⟨x', hx'⟩)
        have h2 := (ih (t + 1) _ (by omega)).mp ⟨rest, hrest⟩
        intro p hp hle hn
        rcases Nat.eq_or_lt_of_le hle with he | hlt
        · exact h1 p hp he.symm
        · exact h2 p hp hlt hn
      · intro h
        obtain ⟨x', hx'⟩ := (happ policies.zipIdx t x).mpr ((hz (fun p => p.period = t → (∃ f, factors f = p.factor) ∧ 0 ≤ p.standardDeviation)).mpr (fun p hp he => h p hp (by omega) (by omega)))
        obtain ⟨rest, hrest⟩ := (ih (t + 1) (nextStates root fixed i t x' (d.shocks t)) (by omega)).mpr (fun p hp hle hn => h p hp (by omega) hn)
        exact ⟨_, py_bind_ok.mpr ⟨x', hx', py_bind_ok.mpr ⟨rest, hrest, rfl⟩⟩⟩
  have hmeas : ∀ xs : List (Fin n → ℝ), xs.length = nT + 2 → ((∃ ms, simulateMeasurements root fixed rows i d xs = .ok ms) ↔ ∀ t ≤ nT + 1, ∃ r ∈ rows, r.period = t) := by
    intro xs hl
    unfold simulateMeasurements
    have hne : ∀ t, rows.filter (fun r => r.period == t) ≠ [] ↔ ∃ r ∈ rows, r.period = t := by
      intro t
      rw [Ne, List.filter_eq_nil_iff]
      simp
    constructor
    · rintro ⟨ms, h⟩ t ht
      rw [mapM_ok_iff] at h
      obtain ⟨y, _, hy⟩ := forall₂_getElem? h (i := t) (x := (xs[t], t)) (by rw [List.getElem?_zipIdx, List.getElem?_eq_getElem (by omega)]; simp)
      rw [← hne]
      intro hc
      dsimp only at hy
      rw [if_pos hc] at hy
      cases hy
    · intro h
      refine mapM_exists (fun x hx => ?_)
      obtain ⟨y, t⟩ := x
      have ht : t < xs.length := (List.getElem?_eq_some_iff.mp (List.mem_zipIdx_iff_getElem?.mp hx)).1
      dsimp only
      rw [if_neg ((hne t).mpr (h t (by omega)))]
      exact ⟨_, rfl⟩
  have hlen : ∀ (k t : Nat) x xs, simulateStates root fixed factors policies i d k t x = .ok xs → xs.length = k + 1 := by
    intro k
    induction k with
    | zero => intro t x xs h; rw [← Except.ok.inj h]; rfl
    | succ k ih =>
      intro t x xs h
      obtain ⟨x', _, h⟩ := py_bind_ok.mp h
      obtain ⟨rest, hrest, h⟩ := py_bind_ok.mp h
      rw [← Except.ok.inj h, List.length_cons, ih _ _ _ hrest]
  constructor
  · rintro ⟨s, h⟩
    obtain ⟨xs, hxs, h⟩ := py_bind_ok.mp h
    obtain ⟨ms, hms, _⟩ := py_bind_ok.mp h
    exact ⟨fun p hp hn => (hstates _ _ _ (by omega)).mp ⟨xs, hxs⟩ p hp (Nat.zero_le _) hn, (hmeas xs (hlen _ _ _ _ hxs)).mp ⟨ms, hms⟩⟩
  · rintro ⟨h1, h2⟩
    obtain ⟨xs, hxs⟩ := (hstates (nT + 1) 0 (generateStartStates root means upperChols d) (by omega)).mpr (fun p hp _ hn => h1 p hp hn)
    obtain ⟨ms, hms⟩ := (hmeas xs (hlen _ _ _ _ hxs)).mpr h2
    exact ⟨_, py_bind_ok.mpr ⟨xs, hxs, py_bind_ok.mpr ⟨ms, hms, rfl⟩⟩⟩

end Skill
