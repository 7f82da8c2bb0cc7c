import Verif.Lemmas.FilterOuts
/-
Anchoring updates do not change the states: in models with one mixture element the likelihood function treats them as if their outcomes were missing, except that their own contribution is recorded.
-/
namespace Skill
open Matrix Spec
variable {nObs nMix n nT nObserved nC : ℕ} {θ : Type}

/-- The same update as an update with a measurement, which is missing unless `b`. -/
def LoopArgs.keep (a : LoopArgs nObs n nC) (b : Bool) : LoopArgs nObs n nC := { a with measurements := fun i => if b then a.measurements i else none, isMeasurement := true }

theorem keep_self {a : LoopArgs nObs n nC} (h : a.isMeasurement = true) : a.keep true = a := by
  unfold LoopArgs.keep
  simp only [if_true]
  rw [← h]

theorem kalmanUpdate_missing (qr : QR) (c : Carry nObs nMix n) (loadings : Fin n → ℝ) (controlParams : Fin nC → ℝ) (measSd : ℝ) (controls : Fin nObs → Fin nC → ℝ) :
    let res := kalmanUpdate qr c.states c.upperChols loadings controlParams measSd (fun _ => none) controls c.logWeights
    res.states = c.states ∧ res.upperChols = c.upperChols ∧ res.logWeights = c.logWeights ∧ res.loglikes = fun _ => 0 := by
  refine ⟨?_, ?_, ?_, ?_⟩
  all_goals
    unfold kalmanUpdate
    simp

theorem kalmanUpdate_single (qr : QR) (c : Carry nObs 1 n) (loadings : Fin n → ℝ) (controlParams : Fin nC → ℝ) (measSd : ℝ) (measurements : Fin nObs → Option ℝ) (controls : Fin nObs → Fin nC → ℝ) :
    (kalmanUpdate qr c.states c.upperChols loadings controlParams measSd measurements controls c.logWeights).logWeights = c.logWeights := by
  funext i e
  unfold kalmanUpdate
  simp

/-- The update step does not distinguish anchoring updates from missing measurements. -/
theorem scanUpdate_keep (qr : QR) (fixed : ScanFixed nObs nT n nObserved nC θ) (c : Carry nObs nMix n) {a : LoopArgs nObs n nC} (h : nMix = 1 ∨ a.isMeasurement = true) :
    (scanUpdate qr fixed c (a.keep a.isMeasurement)).1 = (scanUpdate qr fixed c a).1 ∧ (scanUpdate qr fixed c (a.keep a.isMeasurement)).2.logWeights = (scanUpdate qr fixed c a).2.logWeights := by
  cases hm : a.isMeasurement with
  | true => rw [keep_self hm]; exact ⟨rfl, rfl⟩
  | false =>
    obtain rfl : nMix = 1 := h.resolve_right (by rw [hm]; simp)
    obtain ⟨h1, h2, h3, _⟩ := kalmanUpdate_missing qr c a.loadings a.controlParams a.measSd (fixed.controls (jaxIndex (nT + 1) a.period))
    have h4 := kalmanUpdate_single qr c a.loadings a.controlParams a.measSd a.measurements (fixed.controls (jaxIndex (nT + 1) a.period))
    unfold scanUpdate LoopArgs.keep
    simp only [hm, Bool.false_eq_true, if_false, if_true]
    exact ⟨by rw [h1, h2, h3, h4], by rw [h3, h4]⟩

theorem step_keep (qr : QR) (fixed : ScanFixed nObs nT n nObserved nC θ) (c : Carry nObs nMix n) {a : LoopArgs nObs n nC} (h : nMix = 1 ∨ a.isMeasurement = true) :
    step qr fixed c (a.keep a.isMeasurement) = step qr fixed c a := by
  unfold step
  rw [(scanUpdate_keep qr fixed c h).1]
  rfl

theorem stepOut_keep (qr : QR) (fixed : ScanFixed nObs nT n nObserved nC θ) (c : Carry nObs nMix n) {a : LoopArgs nObs n nC} (h : nMix = 1 ∨ a.isMeasurement = true) :
    (stepOut qr fixed c (a.keep a.isMeasurement)).states = (stepOut qr fixed c a).states ∧ (stepOut qr fixed c (a.keep a.isMeasurement)).logWeights = (stepOut qr fixed c a).logWeights := by
  exact ⟨congrArg Carry.states (scanUpdate_keep qr fixed c h).1, (scanUpdate_keep qr fixed c h).2⟩

theorem stepOut_loglikes (qr : QR) (fixed : ScanFixed nObs nT n nObserved nC θ) (c : Carry nObs nMix n) (a : LoopArgs nObs n nC) (b : Bool) :
    (stepOut qr fixed c (a.keep b)).loglikes = if b then (stepOut qr fixed c a).loglikes else fun _ => 0 := by
  cases b with
  | true =>
    unfold stepOut scanUpdate LoopArgs.keep
    simp only [if_true]
    split_ifs <;> rfl
  | false =>
    unfold stepOut scanUpdate LoopArgs.keep
    simp only [Bool.false_eq_true, if_false, if_true]
    exact (kalmanUpdate_missing qr c a.loadings a.controlParams a.measSd (fixed.controls (jaxIndex (nT + 1) a.period))).2.2.2

/-- The states are those that result if the outcomes of anchoring equations are missing. -/
theorem outs_keep (qr : QR) (fixed : ScanFixed nObs nT n nObserved nC θ) {args : List (LoopArgs nObs n nC)} (h : nMix = 1 ∨ ∀ a ∈ args, a.isMeasurement = true) (c : Carry nObs nMix n) {j : ℕ} {o : StepOut nObs nMix n}
    (ho : (outs qr fixed c args)[j]? = some o) :
    ∃ o', (outs qr fixed c (args.map (fun a => a.keep a.isMeasurement)))[j]? = some o' ∧ o'.states = o.states ∧ o'.logWeights = o.logWeights ∧
      ∀ a, args[j]? = some a → o'.loglikes = if a.isMeasurement then o.loglikes else fun _ => 0 := by
  induction args generalizing c j with
  | nil => simp [outs] at ho
  | cons a as ih =>
    have ha : nMix = 1 ∨ a.isMeasurement = true := h.imp id (fun h => h a (by simp))
    rw [List.map_cons, outs]
    rw [outs] at ho
    cases j with
    | zero =>
      rw [List.getElem?_cons_zero, Option.some.injEq] at ho
      subst ho
      refine ⟨_, List.getElem?_cons_zero, (stepOut_keep qr fixed c ha).1, (stepOut_keep qr fixed c ha).2, fun a' ha' => ?_⟩
      obtain rfl := Option.some.inj ha'
      exact stepOut_loglikes qr fixed c a a.isMeasurement
    | succ j =>
      rw [List.getElem?_cons_succ] at ho ⊢
      rw [step_keep qr fixed c ha]
      simp only [List.getElem?_cons_succ]
      exact ih (h.imp id (fun h a ha => h a (by simp [ha]))) _ ho

/-- Which updates are kept: the measurements before some update, possibly this update, none of the later ones. -/
inductive Keeps : List (LoopArgs nObs n nC) → List Bool → Prop
  | nil : Keeps [] []
  | cons {as bs} (a) : Keeps as bs → Keeps (a :: as) (a.isMeasurement :: bs)
  | stop {as bs} (a b) : bs.length = as.length → (∀ b ∈ bs, b = false) → Keeps (a :: as) (b :: bs)

theorem keeps_of {args : List (LoopArgs nObs n nC)} {bs : List Bool} (hl : bs.length = args.length) {J : ℕ}
    (h : ∀ j a b, args[j]? = some a → bs[j]? = some b → (j < J → b = a.isMeasurement) ∧ (J < j → b = false)) : Keeps args bs := by
  induction args generalizing bs J with
  | nil =>
    obtain rfl := List.length_eq_zero_iff.mp hl
    exact .nil
  | cons a as ih =>
    obtain ⟨b, bs, rfl⟩ := List.exists_cons_of_length_eq_add_one hl
    replace hl : bs.length = as.length := by simpa using hl
    cases J with
    | zero =>
      refine .stop a b hl (fun b' hb' => ?_)
      obtain ⟨j, hj⟩ := List.getElem?_of_mem hb'
      have hlt := (List.getElem?_eq_some_iff.mp hj).1
      exact (h (j + 1) as[j] b' (by rw [List.getElem?_cons_succ, List.getElem?_eq_getElem]) (by rw [List.getElem?_cons_succ, hj])).2 (by omega)
    | succ J =>
      obtain rfl := (h 0 a b rfl rfl).1 (by omega)
      refine .cons a (ih hl (J := J) (fun j a' b' ha hb => ?_))
      obtain ⟨h1, h2⟩ := h (j + 1) a' b' (by rw [List.getElem?_cons_succ, ha]) (by rw [List.getElem?_cons_succ, hb])
      exact ⟨fun hj => h1 (by omega), fun hj => h2 (by omega)⟩

theorem outs_missing (qr : QR) (fixed : ScanFixed nObs nT n nObserved nC θ) {args : List (LoopArgs nObs n nC)} {bs : List Bool} (hl : bs.length = args.length) (hb : ∀ b ∈ bs, b = false) (c c' : Carry nObs nMix n) (i : Fin nObs) :
    ((outs qr fixed c (List.zipWith LoopArgs.keep args bs)).map (fun o => o.loglikes i)).sum = 0 ∧
    (List.zipWith (fun (o : StepOut nObs nMix n) (b : Bool) => if b then o.loglikes i else 0) (outs qr fixed c' args) bs).sum = 0 := by
  induction args generalizing bs c c' with
  | nil => simp [outs]
  | cons a as ih =>
    obtain ⟨b, bs, rfl⟩ := List.exists_cons_of_length_eq_add_one hl
    obtain rfl := hb b (by simp)
    have h := ih (by simpa using hl) (fun b hb' => hb b (by simp [hb'])) 
    rw [List.zipWith_cons_cons, outs, outs, List.zipWith_cons_cons, List.map_cons, List.sum_cons, List.sum_cons, (h _ (step qr fixed c' a)).1, (h c _).2, stepOut_loglikes]
    simp

/-- The contributions of the updates that are kept. -/
theorem contributions_keep (qr : QR) (fixed : ScanFixed nObs nT n nObserved nC θ) {args : List (LoopArgs nObs n nC)} {bs : List Bool} (hk : Keeps args bs) (h : nMix = 1 ∨ ∀ a ∈ args, a.isMeasurement = true)
    (c : Carry nObs nMix n) (i : Fin nObs) :
    (List.zipWith (fun (o : StepOut nObs nMix n) (b : Bool) => if b then o.loglikes i else 0) (outs qr fixed c args) bs).sum =
      ((outs qr fixed c (List.zipWith LoopArgs.keep args bs)).map (fun o => o.loglikes i)).sum := by
  induction hk generalizing c with
  | nil => rfl
  | @cons as bs a hk ih =>
    have ha : nMix = 1 ∨ a.isMeasurement = true := h.imp id (fun h => h a (by simp))
    rw [List.zipWith_cons_cons, outs, outs, List.zipWith_cons_cons, List.map_cons, List.sum_cons, List.sum_cons, ih (h.imp id (fun h a ha => h a (by simp [ha]))), step_keep qr fixed c ha, stepOut_loglikes]
    congr 1
    split_ifs <;> rfl
  | @stop as bs a b hl hb =>
    rw [List.zipWith_cons_cons, outs, outs, List.zipWith_cons_cons, List.map_cons, List.sum_cons, List.sum_cons, stepOut_loglikes, (outs_missing qr fixed hl hb _ (step qr fixed c a) i).1, (outs_missing qr fixed hl hb c _ i).2]
    split_ifs <;> rfl

/-- The steps of the updates that are kept. -/
theorem masked_steps {fixed : ScanFixed nObs nT n nObserved nC θ} {i : Fin nObs} {args : List (LoopArgs nObs n nC)} {bs : List Bool} (hl : bs.length = args.length) {steps steps' : List (Step n)}
    (h : List.Forall₂ SameStep (args.map (stepOf fixed i)) steps) (hl' : steps'.length = steps.length)
    (h' : ∀ (j : ℕ) (s s' : Step n) (b : Bool), steps[j]? = some s → steps'[j]? = some s' → bs[j]? = some b → s' = { s with observed := b && s.observed }) :
    List.Forall₂ SameStep ((List.zipWith LoopArgs.keep args bs).map (stepOf fixed i)) steps' := by
  have hla : steps.length = args.length := by rw [← h.length_eq, List.length_map]
  refine List.forall₂_iff_get.mpr ⟨by rw [List.length_map, List.length_zipWith, hl, Nat.min_self, hl', hla], fun j h1 h2 => ?_⟩
  have hj : j < args.length := by omega
  rw [List.get_eq_getElem, List.get_eq_getElem, List.getElem_map, List.getElem_zipWith]
  rw [h' j steps[j] steps'[j] bs[j] (List.getElem?_eq_getElem (by omega)) (List.getElem?_eq_getElem (by omega)) (List.getElem?_eq_getElem (by omega))]
  have hs := (List.forall₂_iff_get.mp h).2 j (by simpa using hj) (by omega)
  rw [List.get_eq_getElem, List.get_eq_getElem, List.getElem_map] at hs
  obtain ⟨s1, s2, s3⟩ := hs
  refine ⟨?_, s2, fun hob => ?_⟩
  · rw [← s1]
    show (if bs[j] then args[j].measurements i else none).isSome = (bs[j] && (args[j].measurements i).isSome)
    cases bs[j] <;> rfl
  · have : (stepOf fixed i args[j]).observed = true := by
      have hob : (if bs[j] then args[j].measurements i else none).isSome = true := hob
      show (args[j].measurements i).isSome = true
      cases hb : bs[j] with
      | true => rw [hb] at hob; exact hob
      | false => rw [hb] at hob; simp at hob
    exact s3 this

end Skill
