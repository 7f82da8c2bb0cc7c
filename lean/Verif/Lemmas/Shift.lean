import Verif.Lemmas.LazyScan
import Verif.Lemmas.Edits
import Verif.Props.ExactLikelihood
/- The filter if the locations of the latent factors are changed. -/
namespace Skill
open Matrix Spec

section abstract
variable {A B C O : Type}

/-- Two loops with related states have related outputs. -/
theorem lazyRun_rel {per : A → ℕ} {pred pred' : ℕ → C → C} {upd upd' : A → C → C × O} {N : ℕ} {R : ℕ → C → C → Prop} {S : A → O → O → Prop} (hpred : ∀ p c c', p + 1 < N → R p c c' → R (p + 1) (pred p c) (pred' p c'))
    {as : List A} (hupd : ∀ a ∈ as, per a < N ∧ ∀ c c', R (per a) c c' → R (per a) (upd a c).1 (upd' a c').1 ∧ S a (upd a c).2 (upd' a c').2) :
    ∀ {p : ℕ} {c c' : C}, Gapless per p as → R p c c' → ∀ (k : ℕ) (a : A), as[k]? = some a →
      ∃ o o', (lazyRun per pred upd p c as)[k]? = some o ∧ (lazyRun per pred' upd' p c' as)[k]? = some o' ∧ S a o o' := by
  induction as with
  | nil => intro p c c' _ _ k a ha; simp at ha
  | cons b as ih =>
    intro p c c' hgap hR k a ha
    obtain ⟨hb, hupdb⟩ := hupd b (by simp)
    have hR' : R (per b) (if per b = p + 1 then pred p c else c) (if per b = p + 1 then pred' p c' else c') := by
      rcases hgap.1 with h | h
      · rw [if_neg (by omega), if_neg (by omega), h]
        exact hR
      · rw [if_pos h, if_pos h, h]
        exact hpred p c c' (by omega) hR
    obtain ⟨h1, h2⟩ := hupdb _ _ hR'
    cases k with
    | zero =>
      simp only [List.getElem?_cons_zero, Option.some.injEq] at ha
      subst ha
      exact ⟨_, _, rfl, rfl, h2⟩
    | succ k =>
      rw [List.getElem?_cons_succ] at ha
      rw [lazyRun_cons, lazyRun_cons, List.getElem?_cons_succ, List.getElem?_cons_succ]
      exact ih (fun a ha => hupd a (by simp [ha])) hgap.2 h1 k a ha

end abstract

variable {nObs nMix n nT nObserved nC : ℕ} {θ : Type}

/-- The states are moved by τ. -/
structure ShiftedCarry (τ : Fin n → ℝ) (c c' : Carry nObs nMix n) : Prop where
  states : ∀ i e f, c'.states i e f = c.states i e f + τ f
  chols : c'.upperChols = c.upperChols
  weights : c'.logWeights = c.logWeights

/-- The same results, except that the states are moved by τ. -/
structure ShiftedOut (τ : Fin n → ℝ) (o o' : StepOut nObs nMix n) : Prop where
  loglikes : o'.loglikes = o.loglikes
  residuals : o'.residuals = o.residuals
  residualSds : o'.residualSds = o.residualSds
  weights : o'.logWeights = o.logWeights
  states : ∀ i e f, o'.states i e f = o.states i e f + τ f

theorem kalmanUpdate_shift (qr : QR) {τ : Fin n → ℝ} {s s' : Fin nObs → Fin nMix → Fin n → ℝ} (hs : ∀ i e f, s' i e f = s i e f + τ f) (upperChols : Fin nObs → Fin nMix → Matrix (Fin n) (Fin n) ℝ)
    (loadings : Fin n → ℝ) {controlParams controlParams' : Fin nC → ℝ} (measSd : ℝ) (y : Fin nObs → Option ℝ) (x : Fin nObs → Fin nC → ℝ) (w : Fin nObs → Fin nMix → ℝ)
    (hx : ∀ i, (y i).isSome = true → ∑ c, x i c * controlParams' c = ∑ c, x i c * controlParams c - ∑ f, τ f * loadings f) :
    ∃ u, kalmanUpdate qr s upperChols loadings controlParams measSd y x w = u ∧
      kalmanUpdate qr s' upperChols loadings controlParams' measSd y x w = { u with states := fun i e f => u.states i e f + τ f } := by
  refine ⟨_, rfl, ?_⟩
  have hexp : ∀ i e, (y i).isSome = true → (∑ f, s' i e f * loadings f) + ∑ c, x i c * controlParams' c = (∑ f, s i e f * loadings f) + ∑ c, x i c * controlParams c := by
    intro i e hi
    rw [hx i hi]
    simp only [hs, add_mul, Finset.sum_add_distrib]
    ring
  have hcase : ∀ i, y i = none ∨ ∃ v, y i = some v := fun i => by cases y i <;> simp
  unfold kalmanUpdate
  simp only [UpdateResult.mk.injEq]
  refine ⟨?_, trivial, ?_, ?_, ?_, trivial⟩
  · funext i e f
    rcases hcase i with hi | ⟨v, hi⟩
    · simp only [hi, Option.isSome_none, Bool.false_eq_true, if_false, hs]
    · have := hexp i e (by rw [hi]; rfl)
      simp only [hi, Option.isSome_some, if_true, this]
      rw [hs]
      ring
  · funext i
    rcases hcase i with hi | ⟨v, hi⟩
    · simp only [hi, Option.isSome_none, Bool.false_eq_true, if_false]
    · have := fun e => hexp i e (by rw [hi]; rfl)
      simp only [hi, Option.isSome_some, if_true, this]
  · funext i
    rcases hcase i with hi | ⟨v, hi⟩
    · simp only [hi, Option.isSome_none, Bool.false_eq_true, if_false]
    · have := fun e => hexp i e (by rw [hi]; rfl)
      simp only [hi, Option.isSome_some, if_true, this]
  · funext i e
    rcases hcase i with hi | ⟨v, hi⟩
    · simp only [hi, Option.isSome_none, Bool.false_eq_true, if_false]
    · have := hexp i e (by rw [hi]; rfl)
      simp only [hi, Option.isSome_some, if_true, this]

theorem scanUpdate_shift (qr : QR) {τ : Fin n → ℝ} {fixed fixed' : ScanFixed nObs nT n nObserved nC θ} {c c' : Carry nObs nMix n} (h : ShiftedCarry τ c c') {a a' : LoopArgs nObs n nC}
    (ha : a' = { a with controlParams := a'.controlParams }) (hcon : fixed'.controls = fixed.controls)
    (hx : ∀ i, (a.measurements i).isSome = true → ∑ j, fixed.controls (jaxIndex (nT + 1) a.period) i j * a'.controlParams j =
      ∑ j, fixed.controls (jaxIndex (nT + 1) a.period) i j * a.controlParams j - ∑ f, τ f * a.loadings f) :
    ShiftedCarry τ (scanUpdate qr fixed c a).1 (scanUpdate qr fixed' c' a').1 ∧ ShiftedOut τ (stepOut qr fixed c a) (stepOut qr fixed' c' a') := by
  obtain ⟨u, hu, hu'⟩ := kalmanUpdate_shift qr h.states c.upperChols a.loadings a.measSd a.measurements (fixed.controls (jaxIndex (nT + 1) a.period)) c.logWeights hx
  rw [ha]
  unfold stepOut scanUpdate
  dsimp only
  rw [h.chols, h.weights, hcon, hu, hu']
  cases a.isMeasurement with
  | true => exact ⟨⟨fun _ _ _ => rfl, rfl, rfl⟩, ⟨rfl, rfl, rfl, rfl, fun _ _ _ => rfl⟩⟩
  | false => exact ⟨⟨h.states, rfl, rfl⟩, ⟨rfl, rfl, rfl, rfl, h.states⟩⟩

theorem predictMoments_shift (qr : QR) {nSigma : ℕ} {weights : Fin nSigma → ℝ} (hw : ∑ s, weights s = 1) (shockSds : Fin n → ℝ) {z z' : Fin nObs → Fin nMix → Fin nSigma → Fin n → ℝ} {τ : Fin n → ℝ} (hz : ∀ i e s f, z' i e s f = z i e s f + τ f) :
    (∀ i e f, (predictMoments qr weights shockSds z').1 i e f = (predictMoments qr weights shockSds z).1 i e f + τ f) ∧ (predictMoments qr weights shockSds z').2 = (predictMoments qr weights shockSds z).2 := by
  have h1 : ∀ i e f, ∑ s, weights s * z' i e s f = ∑ s, weights s * z i e s f + τ f := fun i e f => by
    simp only [hz, mul_add, Finset.sum_add_distrib, ← Finset.sum_mul, hw, one_mul]
  refine ⟨h1, ?_⟩
  unfold predictMoments
  funext i e
  have h2 : (fun s f => (z' i e s f - ∑ s, weights s * z' i e s f) * Real.sqrt (weights s)) = fun s f => (z i e s f - ∑ s, weights s * z i e s f) * Real.sqrt (weights s) := by
    funext s f
    rw [h1, hz]
    ring
  dsimp only
  rw [h2]

theorem predict_shift (qr : QR) {τ τ' : Fin n → ℝ} {fixed fixed' : ScanFixed nObs nT n nObserved nC θ} (hw : ∑ s, fixed.sigmaWeights s = 1) (hw' : fixed'.sigmaWeights = fixed.sigmaWeights)
    (hfac : fixed'.sigmaScalingFactor = fixed.sigmaScalingFactor) (hsd : fixed'.shockSds = fixed.shockSds) {t : Int}
    (htr : ∀ i x f, unanchoredTransition fixed' i t (fun g => x g + τ g) f = unanchoredTransition fixed i t x f + τ' f) {c c' : Carry nObs nMix n} (h : ShiftedCarry τ c c') :
    ShiftedCarry τ' (predictCarry qr fixed c t) (predictCarry qr fixed' c' t) := by
  have hz : ∀ i e s f, transformSigmaPoints (fun i e s => Fin.append (latentSigmaPoints c'.states c'.upperChols fixed'.sigmaScalingFactor i e s) (fixed'.observed (jaxIndex (nT + 1) t) i)) (fixed'.func (fixed'.transition (jaxIndex nT t)))
        ![fixed'.scaling (jaxIndex (nT + 1) t), fixed'.scaling (jaxIndex (nT + 1) (t + 1))] ![fixed'.constants (jaxIndex (nT + 1) t), fixed'.constants (jaxIndex (nT + 1) (t + 1))] i e s f =
      transformSigmaPoints (fun i e s => Fin.append (latentSigmaPoints c.states c.upperChols fixed.sigmaScalingFactor i e s) (fixed.observed (jaxIndex (nT + 1) t) i)) (fixed.func (fixed.transition (jaxIndex nT t)))
        ![fixed.scaling (jaxIndex (nT + 1) t), fixed.scaling (jaxIndex (nT + 1) (t + 1))] ![fixed.constants (jaxIndex (nT + 1) t), fixed.constants (jaxIndex (nT + 1) (t + 1))] i e s f + τ' f := by
    intro i e s f
    have hp : latentSigmaPoints c'.states c'.upperChols fixed'.sigmaScalingFactor i e s = fun g => latentSigmaPoints c.states c.upperChols fixed.sigmaScalingFactor i e s g + τ g := by
      funext g
      unfold latentSigmaPoints
      rw [h.states, h.chols, hfac]
      ring
    have := htr i (latentSigmaPoints c.states c.upperChols fixed.sigmaScalingFactor i e s) f
    rw [← hp] at this
    exact this
  obtain ⟨h1, h2⟩ := predictMoments_shift qr hw (fixed.shockSds (jaxIndex nT t)) hz
  unfold predictCarry
  dsimp only
  rw [hw', hsd]
  exact ⟨h1, h2, h.weights⟩

/-- The outputs of the filter if all locations are changed. -/
theorem outs_shift (qr : QR) {τ : ℕ → Fin n → ℝ} {fixed fixed' : ScanFixed nObs nT n nObserved nC θ} (hw : ∑ s, fixed.sigmaWeights s = 1) (hw' : fixed'.sigmaWeights = fixed.sigmaWeights)
    (hfac : fixed'.sigmaScalingFactor = fixed.sigmaScalingFactor) (hsd : fixed'.shockSds = fixed.shockSds) (hcon : fixed'.controls = fixed.controls)
    (htr : ∀ t ≤ nT, ∀ i x f, unanchoredTransition fixed' i (t : Int) (fun g => x g + τ t g) f = unanchoredTransition fixed i (t : Int) x f + τ (t + 1) f) {c c' : Carry nObs nMix n} (h : ShiftedCarry (τ 0) c c')
    {A : Type} (row row' : A → UpdateParams n nC) (dat : A → Fin nObs → Option ℝ) {as : List A} (hrow : ∀ a ∈ as, (row a).period < nT + 2 ∧ row' a = { row a with controlParams := (row' a).controlParams } ∧
      ∀ (p : Fin (nT + 2)) i, p.val = (row a).period → (dat a i).isSome = true → ∑ j, fixed.controls p i j * (row' a).controlParams j =
        ∑ j, fixed.controls p i j * (row a).controlParams j - ∑ f, τ (row a).period f * (row a).loadings f)
    (hgap : Gapless (fun a => (row a).period) 0 as) (h0 : ∀ a ∈ as.head?, (row a).period = 0) :
    ∀ (k : ℕ) (a : A), as[k]? = some a → ∃ o o', (outs qr fixed c (loopArgs (nT + 1) (as.map row) (as.map dat)))[k]? = some o ∧ (outs qr fixed' c' (loopArgs (nT + 1) (as.map row') (as.map dat)))[k]? = some o' ∧
      ShiftedOut (τ (row a).period) o o' := by
  have hper : ∀ a ∈ as, (row' a).period = (row a).period := fun a ha => by rw [(hrow a ha).2.1]
  have e1 := outs_lazy qr fixed (nT + 1) c 0 (as.map (fun a => (row a, dat a))) (by
    intro x hx
    rw [List.head?_map] at hx
    obtain ⟨a, ha, rfl⟩ := Option.mem_map.mp hx
    have := h0 a ha
    show (row a).period ≠ 1
    omega)
  have e2 := outs_lazy qr fixed' (nT + 1) c' 0 (as.map (fun a => (row' a, dat a))) (by
    intro x hx
    rw [List.head?_map] at hx
    obtain ⟨a, ha, rfl⟩ := Option.mem_map.mp hx
    have := h0 a ha
    have := hper a (List.mem_of_mem_head? ha)
    show (row' a).period ≠ 1
    omega)
  simp only [List.map_map, Function.comp_def] at e1 e2
  rw [e1, e2]
  have m1 : ∀ (c : Carry nObs nMix n) p, lazyRun (fun a : UpdateParams n nC × (Fin nObs → Option ℝ) => a.1.period) (fun p c => predictCarry qr fixed c (periodIndex (nT + 1) p)) (updOf qr fixed (nT + 1)) p c (as.map (fun a => (row a, dat a))) =
      lazyRun (fun a => (row a).period) (fun p c => predictCarry qr fixed c (periodIndex (nT + 1) p)) (fun a => updOf qr fixed (nT + 1) (row a, dat a)) p c as := by
    intro c p
    clear e1 e2 hgap h0 hrow hper
    induction as generalizing c p with
    | nil => rfl
    | cons a as ih => rw [List.map_cons, lazyRun_cons, lazyRun_cons, ih]
  have m2 : ∀ (c : Carry nObs nMix n) p, lazyRun (fun a : UpdateParams n nC × (Fin nObs → Option ℝ) => a.1.period) (fun p c => predictCarry qr fixed' c (periodIndex (nT + 1) p)) (updOf qr fixed' (nT + 1)) p c (as.map (fun a => (row' a, dat a))) =
      lazyRun (fun a => (row a).period) (fun p c => predictCarry qr fixed' c (periodIndex (nT + 1) p)) (fun a => updOf qr fixed' (nT + 1) (row' a, dat a)) p c as := by
    intro c p
    clear e1 e2 hgap h0 hrow m1
    induction as generalizing c p with
    | nil => rfl
    | cons a as ih => rw [List.map_cons, lazyRun_cons, lazyRun_cons, ih (fun a ha => hper a (by simp [ha])), hper a (by simp)]
  rw [m1, m2]
  refine lazyRun_rel (N := nT + 2) (R := fun p c c' => ShiftedCarry (τ p) c c') (S := fun a o o' => ShiftedOut (τ (row a).period) o o') (fun p c c' hp hR => ?_) (fun a ha => ⟨(hrow a ha).1, fun c c' hR => ?_⟩) hgap h
  · have hpi : periodIndex (nT + 1) p = p := if_neg (by omega)
    rw [hpi]
    exact predict_shift qr hw hw' hfac hsd (htr p (by omega)) hR
  · obtain ⟨r1, r2, r3⟩ := hrow a ha
    unfold updOf
    refine scanUpdate_shift qr hR ?_ hcon (fun i hi => r3 _ i ?_ hi)
    · unfold argOf
      dsimp only
      rw [r2]
    · show (jaxIndex (nT + 1) (periodIndex (nT + 1) (row a).period)).val = (row a).period
      rw [show jaxIndex (nT + 1) (periodIndex (nT + 1) (row a).period) = ⟨(row a).period, by omega⟩ from jaxIndex_period r1]

end Skill
