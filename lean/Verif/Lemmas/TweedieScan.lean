import Verif.Lemmas.Tweedie
import Verif.Lemmas.Scan
/- The outputs of the filter in the period of a measurement, as functions of this measurement. -/
namespace Skill
open Matrix Spec
variable {nMix n nT nObserved nC : ℕ} {θ : Type}

theorem stepOut_carry (qr : QR) (fixed : ScanFixed 1 nT n nObserved nC θ) (c : Carry 1 nMix n) (a : LoopArgs 1 n nC) :
    (stepOut qr fixed c a).states = (scanUpdate qr fixed c a).1.states ∧ (stepOut qr fixed c a).logWeights = (scanUpdate qr fixed c a).1.logWeights := by
  refine ⟨rfl, ?_⟩
  unfold stepOut scanUpdate
  dsimp only
  split_ifs <;> rfl

/-- The average of the states of factor `f` with the mixture weights. -/
noncomputable def StepOut.average (o : StepOut 1 nMix n) (f : Fin n) : ℝ := ∑ e, o.states 0 e f * Real.exp (o.logWeights 0 e)

theorem outs_tweedie [NeZero nMix] {qr : QR} (hqr : ValidQR qr) (fixed : ScanFixed 1 nT n nObserved nC θ) {h : Fin n → ℝ} {sd : ℝ} {c : ℝ → Carry 1 nMix n} (ht : Tweedie h sd c) {f : Fin n} (hf : ∀ g, g ≠ f → h g = 0)
    (hpos : 0 ≤ h f) {as : List (LoopArgs 1 n nC)} {k : ℕ} (hk : k < as.length)
    (ha : ∀ j ≤ k, ∀ b, as[j]? = some b → b.isMeasurement = true ∧ b.measSd ≠ 0 ∧ (j < k → b.isPredict = false)) {s s' : ℝ} (hs : s ≤ s') :
    ∃ o o', (outs qr fixed (c s) as)[k]? = some o ∧ (outs qr fixed (c s') as)[k]? = some o' ∧ o.average f ≤ o'.average f := by
  induction k generalizing c as with
  | zero =>
    cases as with
    | nil => simp at hk
    | cons a as =>
      obtain ⟨h1, h2, _⟩ := ha 0 le_rfl a rfl
      refine ⟨_, _, rfl, rfl, ?_⟩
      have hm := tweedie_monotone (tweedie_next hqr fixed ht a h1 h2) hf hpos hs
      unfold StepOut.average
      rw [(stepOut_carry qr fixed (c s) a).1, (stepOut_carry qr fixed (c s) a).2, (stepOut_carry qr fixed (c s') a).1, (stepOut_carry qr fixed (c s') a).2]
      exact hm
  | succ k ih =>
    cases as with
    | nil => simp at hk
    | cons a as =>
      obtain ⟨h1, h2, h3⟩ := ha 0 (by omega) a rfl
      have h3 := h3 (by omega)
      simp only [outs, List.getElem?_cons_succ]
      have hst : ∀ c : Carry 1 nMix n, step qr fixed c a = (scanUpdate qr fixed c a).1 := fun c => by unfold step; rw [h3]; rfl
      rw [hst, hst]
      exact ih (tweedie_next hqr fixed ht a h1 h2) (by simpa using hk) (fun j hj b hb => by
        obtain ⟨q1, q2, q3⟩ := ha (j + 1) (by omega) b (by simpa using hb)
        exact ⟨q1, q2, fun h => q3 (by omega)⟩)

theorem outs_append_get (qr : QR) (fixed : ScanFixed 1 nT n nObserved nC θ) (pre as : List (LoopArgs 1 n nC)) (j : ℕ) (c : Carry 1 nMix n) :
    (outs qr fixed c (pre ++ as))[pre.length + j]? = (outs qr fixed (pre.foldl (step qr fixed) c) as)[j]? := by
  induction pre generalizing c with
  | nil => simp
  | cons a pre ih =>
    rw [List.cons_append, List.length_cons, show pre.length + 1 + j = pre.length + j + 1 by omega]
    simp only [outs, List.getElem?_cons_succ, List.foldl_cons]
    exact ih _

/-- A higher value of a measurement that measures only factor `f`, all else equal: the average state of the factor does not decrease, at this and all later measurements of the period. -/
theorem outs_monotone [NeZero nMix] {qr : QR} (hqr : ValidQR qr) (fixed : ScanFixed 1 nT n nObserved nC θ) (c : Carry 1 nMix n) {as : List (LoopArgs 1 n nC)} {k0 k : ℕ} {a : LoopArgs 1 n nC} (h0 : as[k0]? = some a)
    {f : Fin n} (hf : ∀ g, g ≠ f → a.loadings g = 0) (hpos : 0 ≤ a.loadings f) (hle : k0 ≤ k) (hk : k < as.length)
    (ha : ∀ j ≤ k, k0 ≤ j → ∀ b, as[j]? = some b → b.isMeasurement = true ∧ b.measSd ≠ 0 ∧ (j < k → b.isPredict = false)) {s s' : ℝ} (hs : s ≤ s') :
    ∃ o o', (outs qr fixed c (as.set k0 { a with measurements := fun _ => some s }))[k]? = some o ∧ (outs qr fixed c (as.set k0 { a with measurements := fun _ => some s' }))[k]? = some o' ∧ o.average f ≤ o'.average f := by
  have hk0 := (List.getElem?_eq_some_iff.mp h0).1
  obtain ⟨q1, q2, q3⟩ := ha k0 hle le_rfl a h0
  obtain ⟨d, rfl⟩ := Nat.exists_eq_add_of_le hle
  have hset : ∀ x, as.set k0 x = as.take k0 ++ x :: as.drop (k0 + 1) := fun x => List.set_eq_take_append_cons_drop (l := as) (i := k0) (a := x) |>.trans (if_pos hk0)
  have hlen : (as.take k0).length = k0 := by rw [List.length_take]; omega
  have hget : ∀ x, (outs qr fixed c (as.set k0 x))[k0 + d]? = (outs qr fixed ((as.take k0).foldl (step qr fixed) c) (x :: as.drop (k0 + 1)))[d]? := fun x => by
    rw [hset]
    have := outs_append_get qr fixed (as.take k0) (x :: as.drop (k0 + 1)) d c
    rw [hlen] at this
    exact this
  rw [hget, hget]
  generalize (as.take k0).foldl (step qr fixed) c = c0
  have ht := tweedie_first hqr fixed c0 a q1 q2
  cases d with
  | zero =>
    refine ⟨_, _, rfl, rfl, ?_⟩
    have hm := tweedie_monotone ht hf hpos hs
    unfold StepOut.average
    rw [(stepOut_carry qr fixed c0 _).1, (stepOut_carry qr fixed c0 _).2, (stepOut_carry qr fixed c0 _).1, (stepOut_carry qr fixed c0 _).2]
    exact hm
  | succ d =>
    simp only [outs, List.getElem?_cons_succ]
    have hst : ∀ s, step qr fixed c0 { a with measurements := fun _ => some s } = (scanUpdate qr fixed c0 { a with measurements := fun _ => some s }).1 := fun s => by
      unfold step
      dsimp only
      rw [q3 (by omega)]
      rfl
    rw [hst, hst]
    refine outs_tweedie hqr fixed ht hf hpos (by rw [List.length_drop]; omega) (fun j hj b hb => ?_) hs
    rw [List.getElem?_drop] at hb
    obtain ⟨r1, r2, r3⟩ := ha (k0 + 1 + j) (by omega) (by omega) b hb
    exact ⟨r1, r2, fun h => r3 (by omega)⟩

end Skill
