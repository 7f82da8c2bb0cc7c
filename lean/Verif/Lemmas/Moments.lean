import Verif.Lemmas.Identification
import Mathlib.Probability.Moments.Covariance
import Mathlib.Probability.Distributions.Gaussian.Real

/-! Means and covariances of a linear state space model (for C119). -/

namespace Skill
open Matrix MeasureTheory ProbabilityTheory

variable {n : ℕ} {Ω : Type} [MeasurableSpace Ω] {P : Measure Ω} [IsProbabilityMeasure P]

/-- Independent standard normal variables, up to second moments. -/
structure White {ι : Type} (P : Measure Ω) (Z : ι → Ω → ℝ) : Prop where
  memLp : ∀ j, MemLp (Z j) 2 P
  mean : ∀ j, ∫ ω, Z j ω ∂P = 0
  var : ∀ j, cov[Z j, Z j; P] = 1
  cov : ∀ i j, i ≠ j → cov[Z i, Z j; P] = 0

theorem white_of_normal {ι : Type} {Z : ι → Ω → ℝ} (hm : ∀ j, Measurable (Z j)) (hn : ∀ j, P.map (Z j) = gaussianReal 0 1) (hi : iIndepFun Z P) : White P Z := by
  have hmem : ∀ j, MemLp (Z j) 2 P := fun j => by
    have : MemLp id 2 (P.map (Z j)) := by rw [hn j]; exact memLp_id_gaussianReal 2
    exact (memLp_map_measure_iff aestronglyMeasurable_id (hm j).aemeasurable).mp this
  refine ⟨hmem, fun j => ?_, fun j => ?_, fun i j hij => ?_⟩
  · rw [← integral_map (f := fun x => x) (hm j).aemeasurable aestronglyMeasurable_id, hn j, integral_id_gaussianReal]
  · rw [covariance_self (hm j).aemeasurable, ← variance_id_map (hm j).aemeasurable, hn j, variance_id_gaussianReal]
    simp
  · exact (hi.indepFun hij).covariance_eq_zero (hmem i) (hmem j)

/-- A linear combination. -/
theorem memLp_sum {ι : Type} [Fintype ι] {X : ι → Ω → ℝ} (hX : ∀ i, MemLp (X i) 2 P) (w : ι → ℝ) : MemLp (fun ω => ∑ i, w i * X i ω) 2 P :=
  memLp_finset_sum _ (fun i _ => (hX i).const_mul (w i))

theorem cov_sum_left {ι : Type} [Fintype ι] {X : ι → Ω → ℝ} (hX : ∀ i, MemLp (X i) 2 P) (w : ι → ℝ) {Y : Ω → ℝ} (hY : MemLp Y 2 P) : cov[fun ω => ∑ i, w i * X i ω, Y; P] = ∑ i, w i * cov[X i, Y; P] := by
  rw [covariance_fun_sum_left (fun i => (hX i).const_mul (w i)) hY]
  exact Finset.sum_congr rfl (fun i _ => covariance_const_mul_left _)

/-- An affine function of factors plus noise. -/
theorem memLp_affine {X : Fin n → Ω → ℝ} (hX : ∀ i, MemLp (X i) 2 P) {Z : Ω → ℝ} (hZ : MemLp Z 2 P) (b s : ℝ) (w : Fin n → ℝ) : MemLp (fun ω => b + ∑ i, w i * X i ω + s * Z ω) 2 P :=
  ((memLp_const b).add (memLp_sum hX w)).add (hZ.const_mul s)

theorem mean_affine {X : Fin n → Ω → ℝ} (hX : ∀ i, MemLp (X i) 2 P) {Z : Ω → ℝ} (hZ : MemLp Z 2 P) (hZ0 : ∫ ω, Z ω ∂P = 0) (b s : ℝ) (w : Fin n → ℝ) :
    ∫ ω, (b + ∑ i, w i * X i ω + s * Z ω) ∂P = b + w ⬝ᵥ fun i => ∫ ω, X i ω ∂P := by
  have h1 : ∀ i, Integrable (X i) P := fun i => (hX i).integrable (by norm_num)
  have h2 : Integrable Z P := hZ.integrable (by norm_num)
  rw [integral_add, integral_add, integral_const_mul, hZ0, integral_finset_sum]
  · simp [integral_const_mul, dotProduct]
  · exact fun i _ => (h1 i).const_mul _
  · exact integrable_const b
  · exact integrable_finset_sum _ (fun i _ => (h1 i).const_mul _)
  · exact (integrable_const b).add (integrable_finset_sum _ (fun i _ => (h1 i).const_mul _))
  · exact h2.const_mul s

theorem cov_affine_left {X : Fin n → Ω → ℝ} (hX : ∀ i, MemLp (X i) 2 P) {Z : Ω → ℝ} (hZ : MemLp Z 2 P) (b s : ℝ) (w : Fin n → ℝ) {Y : Ω → ℝ} (hY : MemLp Y 2 P) :
    cov[fun ω => b + ∑ i, w i * X i ω + s * Z ω, Y; P] = (w ⬝ᵥ fun i => cov[X i, Y; P]) + s * cov[Z, Y; P] := by
  have h1 : (fun ω => b + ∑ i, w i * X i ω + s * Z ω) = fun ω => b + (∑ i, w i * X i ω + s * Z ω) := by funext ω; ring
  have hint : Integrable (fun ω => ∑ i, w i * X i ω + s * Z ω) P := ((memLp_sum hX w).add (hZ.const_mul s)).integrable (by norm_num)
  rw [h1, covariance_const_add_left hint b]
  have h2 : cov[fun ω => ∑ i, w i * X i ω + s * Z ω, Y; P] = cov[(fun ω => ∑ i, w i * X i ω) + (fun ω => s * Z ω), Y; P] := rfl
  rw [h2, covariance_add_left (memLp_sum hX w) (hZ.const_mul s) hY, cov_sum_left hX w hY, covariance_const_mul_left]
  rfl

/-- The random numbers that influence the factors of period t. -/
inductive Past {F : Type} (t : ℕ) : (F ⊕ (ℕ × F)) ⊕ (ℕ × String) → Prop
  | start (f : F) : Past t (.inl (.inl f))
  | shock {s : ℕ} (f : F) : s < t → Past t (.inl (.inr (s, f)))

/-- Random variables that are generated by a system. -/
structure Generated (y : System n) (Z : (Fin n ⊕ (ℕ × Fin n)) ⊕ (ℕ × String) → Ω → ℝ) (X : ℕ → Fin n → Ω → ℝ) (Y : ℕ → String → Ω → ℝ) : Prop where
  start : ∀ i ω, X 0 i ω = y.mu i + ∑ j, y.L i j * Z (.inl (.inl j)) ω
  next : ∀ t i ω, X (t + 1) i ω = y.c t i + ∑ j, y.A t i j * X t j ω + y.q t i * Z (.inl (.inr (t, i))) ω
  measurement : ∀ t v ω, Y t v ω = (y.eq t).b v + ∑ i, (y.eq t).h v i * X t i ω + (y.eq t).s v * Z (.inr (t, v)) ω

section
variable {y : System n} {Z : (Fin n ⊕ (ℕ × Fin n)) ⊕ (ℕ × String) → Ω → ℝ} {X : ℕ → Fin n → Ω → ℝ} {Y : ℕ → String → Ω → ℝ}

theorem Generated.memLp (h : Generated y Z X Y) (hZ : White P Z) (t : ℕ) : ∀ i, MemLp (X t i) 2 P := by
  induction t with
  | zero =>
    intro i
    rw [show X 0 i = fun ω => y.mu i + ∑ j, y.L i j * Z (.inl (.inl j)) ω from funext (h.start i)]
    have h1 : MemLp (fun ω => ∑ j, y.L i j * Z (.inl (.inl j)) ω) 2 P := memLp_sum (X := fun j => Z (.inl (.inl j))) (fun j => hZ.memLp _) (y.L i)
    have h2 : MemLp (fun _ : Ω => y.mu i) 2 P := memLp_const _
    exact h2.add h1
  | succ t ih =>
    intro i
    rw [show X (t + 1) i = _ from funext (h.next t i)]
    exact memLp_affine ih (hZ.memLp _) _ _ _

theorem Generated.memLp' (h : Generated y Z X Y) (hZ : White P Z) (t : ℕ) (v : String) : MemLp (Y t v) 2 P := by
  rw [show Y t v = _ from funext (h.measurement t v)]
  exact memLp_affine (h.memLp hZ t) (hZ.memLp _) _ _ _

theorem Generated.mean (h : Generated y Z X Y) (hZ : White P Z) (t : ℕ) : ∀ i, ∫ ω, X t i ω ∂P = y.mean t i := by
  induction t with
  | zero =>
    intro i
    have := mean_affine (P := P) (X := fun j => Z (.inl (.inl j))) (fun j => hZ.memLp _) (hZ.memLp (.inl (.inl i))) (hZ.mean _) (y.mu i) 0 (y.L i)
    simp only [zero_mul, add_zero, hZ.mean] at this
    simp_rw [h.start]
    rw [this]
    simp [System.mean, dotProduct]
  | succ t ih =>
    intro i
    simp_rw [h.next]
    rw [mean_affine (h.memLp hZ t) (hZ.memLp _) (hZ.mean _)]
    simp_rw [ih]
    rfl

theorem Generated.future (h : Generated y Z X Y) (hZ : White P Z) (t : ℕ) : ∀ i z, ¬Past t z → cov[X t i, Z z; P] = 0 := by
  induction t with
  | zero =>
    intro i z hz
    have h1 : X 0 i = fun ω => y.mu i + ∑ j, y.L i j * Z (.inl (.inl j)) ω + 0 * Z (.inl (.inl i)) ω := by
      funext ω
      rw [h.start]
      ring
    rw [h1, cov_affine_left (fun j => hZ.memLp _) (hZ.memLp _) _ _ _ (hZ.memLp z), zero_mul, add_zero]
    refine Finset.sum_eq_zero (fun j _ => ?_)
    dsimp only
    rw [hZ.cov _ _ (by rintro rfl; exact hz (Past.start j)), mul_zero]
  | succ t ih =>
    intro i z hz
    rw [show X (t + 1) i = _ from funext (h.next t i), cov_affine_left (h.memLp hZ t) (hZ.memLp _) _ _ _ (hZ.memLp z), hZ.cov _ _ (by rintro rfl; exact hz (Past.shock i (Nat.lt_succ_self t))), mul_zero, add_zero]
    refine Finset.sum_eq_zero (fun j _ => ?_)
    dsimp only
    rw [ih j z (fun hp => hz ?_), mul_zero]
    cases hp with
    | start f => exact .start f
    | shock f hs => exact .shock f (by omega)

theorem Generated.cov (h : Generated y Z X Y) (hZ : White P Z) (t : ℕ) : ∀ i j, cov[X t i, X t j; P] = y.covs t i j := by
  induction t with
  | zero =>
    have h1 : ∀ i, X 0 i = fun ω => y.mu i + ∑ j, y.L i j * Z (.inl (.inl j)) ω + 0 * Z (.inl (.inl i)) ω := fun i => by
      funext ω
      rw [h.start]
      ring
    intro i j
    have hj := h.memLp hZ 0 j
    have h2 : ∀ k, cov[Z (.inl (.inl k)), X 0 j; P] = y.L j k := fun k => by
      rw [covariance_comm, h1 j, cov_affine_left (fun j => hZ.memLp _) (hZ.memLp _) _ _ _ (hZ.memLp _), zero_mul, add_zero, dotProduct, Finset.sum_eq_single k]
      · rw [hZ.var, mul_one]
      · intro l _ hl
        rw [hZ.cov _ _ (by simpa using hl), mul_zero]
      · simp
    rw [h1 i, cov_affine_left (fun j => hZ.memLp _) (hZ.memLp _) _ _ _ hj, zero_mul, add_zero]
    simp_rw [h2]
    rfl
  | succ t ih =>
    intro i j
    have hj := h.memLp hZ (t + 1) j
    have h3 : ∀ i z, ¬Past t z → cov[Z z, X t i; P] = 0 := fun i z hz => by rw [covariance_comm]; exact h.future hZ t i z hz
    have hnp : ∀ k, ¬Past t (.inl (.inr (t, k)) : (Fin n ⊕ (ℕ × Fin n)) ⊕ (ℕ × String)) := fun k hp => by
      cases hp with
      | shock f hs => omega
    have h2 : ∀ k, cov[X t k, X (t + 1) j; P] = ∑ l, y.A t j l * y.covs t l k := fun k => by
      rw [covariance_comm, show X (t + 1) j = _ from funext (h.next t j), cov_affine_left (h.memLp hZ t) (hZ.memLp _) _ _ _ (h.memLp hZ t k), h3 _ _ (hnp j), mul_zero, add_zero]
      simp_rw [ih]
      rfl
    have h4 : cov[Z (.inl (.inr (t, i))), X (t + 1) j; P] = if i = j then y.q t i else 0 := by
      rw [covariance_comm, show X (t + 1) j = _ from funext (h.next t j), cov_affine_left (h.memLp hZ t) (hZ.memLp _) _ _ _ (hZ.memLp _)]
      have : (y.A t j ⬝ᵥ fun k => cov[X t k, Z (.inl (.inr (t, i))); P]) = 0 := Finset.sum_eq_zero (fun k _ => by
        dsimp only
        rw [h.future hZ t k _ (hnp i), mul_zero])
      rw [this, zero_add]
      split_ifs with hij
      · subst hij
        rw [hZ.var, mul_one]
      · rw [hZ.cov _ _ (by simpa using Ne.symm hij), mul_zero]
    rw [show X (t + 1) i = _ from funext (h.next t i), cov_affine_left (h.memLp hZ t) (hZ.memLp _) _ _ _ hj]
    rw [h4]
    simp_rw [h2]
    simp only [System.covs, Matrix.add_apply, Matrix.diagonal_apply, mul_apply, transpose_apply, dotProduct, Finset.mul_sum, Finset.sum_mul]
    congr 1
    · rw [Finset.sum_comm]
      refine Finset.sum_congr rfl (fun l _ => Finset.sum_congr rfl (fun k _ => ?_))
      have := congrFun (congrFun (y.covs_symm t) k) l
      rw [transpose_apply] at this
      rw [this]
      ring
    · split_ifs <;> ring

/-- The covariances between successive periods. -/
theorem Generated.cross (h : Generated y Z X Y) (hZ : White P Z) (t : ℕ) (i j : Fin n) : cov[X t i, X (t + 1) j; P] = (y.covs t * (y.A t)ᵀ) i j := by
  rw [covariance_comm, show X (t + 1) j = _ from funext (h.next t j), cov_affine_left (h.memLp hZ t) (hZ.memLp _) _ _ _ (h.memLp hZ t i), covariance_comm, h.future hZ t i _ (by
    intro hp
    cases hp with
    | shock f hs => omega), mul_zero, add_zero]
  simp_rw [h.cov hZ]
  simp only [mul_apply, transpose_apply, dotProduct]
  refine Finset.sum_congr rfl (fun k _ => ?_)
  have := congrFun (congrFun (y.covs_symm t) i) k
  rw [transpose_apply] at this
  rw [this]
  ring

theorem Generated.measurement_mean (h : Generated y Z X Y) (hZ : White P Z) (t : ℕ) (v : String) : ∫ ω, Y t v ω ∂P = (y.eq t).b v + (y.eq t).h v ⬝ᵥ y.mean t := by
  simp_rw [h.measurement]
  rw [mean_affine (h.memLp hZ t) (hZ.memLp _) (hZ.mean _)]
  simp_rw [h.mean hZ]

theorem not_past_error {t s : ℕ} {v : String} : ¬Past t (.inr (s, v) : (Fin n ⊕ (ℕ × Fin n)) ⊕ (ℕ × String)) := by
  intro h
  cases h

theorem Generated.error_cov (h : Generated y Z X Y) (hZ : White P Z) (t s : ℕ) (v w : String) : cov[Z (.inr (t, v)), Y s w; P] = if (s, w) = (t, v) then (y.eq s).s w else 0 := by
  rw [covariance_comm, show Y s w = _ from funext (h.measurement s w), cov_affine_left (h.memLp hZ s) (hZ.memLp _) _ _ _ (hZ.memLp _)]
  have : ((y.eq s).h w ⬝ᵥ fun k => cov[X s k, Z (.inr (t, v)); P]) = 0 := Finset.sum_eq_zero (fun k _ => by
    dsimp only
    rw [h.future hZ s k _ not_past_error, mul_zero])
  rw [this, zero_add]
  split_ifs with heq
  · rw [heq, hZ.var, mul_one]
  · rw [hZ.cov _ _ (by simpa using heq), mul_zero]

theorem Generated.measurement_cov_of (h : Generated y Z X Y) (hZ : White P Z) (t s : ℕ) (v w : String) {C : Matrix (Fin n) (Fin n) ℝ} (hC : ∀ i j, cov[X t i, X s j; P] = C i j) :
    cov[Y t v, Y s w; P] = (y.eq t).h v ⬝ᵥ C *ᵥ (y.eq s).h w + if (s, w) = (t, v) then (y.eq t).s v * (y.eq s).s w else 0 := by
  have h2 : ∀ i, cov[X t i, Y s w; P] = (C *ᵥ (y.eq s).h w) i := fun i => by
    rw [covariance_comm, show Y s w = _ from funext (h.measurement s w), cov_affine_left (h.memLp hZ s) (hZ.memLp _) _ _ _ (h.memLp hZ t i), covariance_comm, h.future hZ t i _ not_past_error, mul_zero, add_zero]
    rw [mulVec, dotProduct_comm]
    refine congrArg (fun z => z ⬝ᵥ (y.eq s).h w) (funext (fun j => ?_))
    rw [covariance_comm, hC]
  rw [show Y t v = _ from funext (h.measurement t v), cov_affine_left (h.memLp hZ t) (hZ.memLp _) _ _ _ (h.memLp' hZ s w), h.error_cov hZ]
  simp_rw [h2]
  congr 1
  split_ifs <;> simp

theorem Generated.measurement_cov (h : Generated y Z X Y) (hZ : White P Z) (t : ℕ) (v w : String) : cov[Y t v, Y t w; P] = (y.eq t).cov (y.covs t) v w := by
  rw [h.measurement_cov_of hZ t t v w (h.cov hZ t)]
  unfold Equations.cov
  congr 1
  by_cases hvw : v = w
  · subst hvw
    rw [if_pos rfl, if_pos rfl, sq]
  · rw [if_neg (by simpa using Ne.symm hvw), if_neg hvw]

theorem Generated.measurement_cross (h : Generated y Z X Y) (hZ : White P Z) (t : ℕ) (v w : String) : cov[Y t v, Y (t + 1) w; P] = (y.eq t).h v ⬝ᵥ (y.covs t * (y.A t)ᵀ) *ᵥ (y.eq (t + 1)).h w := by
  rw [h.measurement_cov_of hZ t (t + 1) v w (h.cross hZ t), if_neg (by simp), add_zero]

end

end Skill
