import Verif.Lemmas.CorrelationScores
/- Correlations do not depend on units. -/
namespace Skill
open Spec

section
variable {ι : Type}

theorem sampleMean_affine {s : Finset ι} (hs : s.Nonempty) (x : ι → ℝ) (a b : ℝ) : sampleMean s (fun i => a * x i + b) = a * sampleMean s x + b := by
  have hc : (s.card : ℝ) ≠ 0 := by exact_mod_cast hs.card_pos.ne'
  unfold sampleMean
  rw [Finset.sum_add_distrib, ← Finset.mul_sum, Finset.sum_const, nsmul_eq_mul]
  field_simp

theorem sumOfProducts_affine (s : Finset ι) (x y : ι → ℝ) (a b c d : ℝ) : sumOfProducts s (fun i => a * x i + b) (fun i => c * y i + d) = a * c * sumOfProducts s x y := by
  rcases s.eq_empty_or_nonempty with rfl | hs
  · simp [sumOfProducts]
  · unfold sumOfProducts
    rw [sampleMean_affine hs, sampleMean_affine hs, Finset.mul_sum]
    exact Finset.sum_congr rfl (fun i _ => by ring)

theorem sumOfProducts_congr {s : Finset ι} {x x' y y' : ι → ℝ} (hx : ∀ i ∈ s, x i = x' i) (hy : ∀ i ∈ s, y i = y' i) : sumOfProducts s x y = sumOfProducts s x' y' := by
  have h1 : sampleMean s x = sampleMean s x' := by unfold sampleMean; rw [Finset.sum_congr rfl hx]
  have h2 : sampleMean s y = sampleMean s y' := by unfold sampleMean; rw [Finset.sum_congr rfl hy]
  unfold sumOfProducts
  rw [h1, h2]
  exact Finset.sum_congr rfl (fun i hi => by rw [hx i hi, hy i hi])

theorem correlation_congr {s : Finset ι} {x x' y y' : ι → ℝ} (hx : ∀ i ∈ s, x i = x' i) (hy : ∀ i ∈ s, y i = y' i) : correlation s x y = correlation s x' y' := by
  unfold correlation
  rw [sumOfProducts_congr hx hx, sumOfProducts_congr hy hy, sumOfProducts_congr hx hy]

theorem correlation_affine (s : Finset ι) (x y : ι → ℝ) {a c : ℝ} (ha : 0 < a) (hc : 0 < c) (b d : ℝ) : correlation s (fun i => a * x i + b) (fun i => c * y i + d) = correlation s x y := by
  unfold correlation
  rw [sumOfProducts_affine, sumOfProducts_affine, sumOfProducts_affine]
  have h1 : a * a * sumOfProducts s x x = 0 ↔ sumOfProducts s x x = 0 := by
    rw [mul_eq_zero]
    exact or_iff_right (by positivity)
  have h2 : c * c * sumOfProducts s y y = 0 ↔ sumOfProducts s y y = 0 := by
    rw [mul_eq_zero]
    exact or_iff_right (by positivity)
  simp only [h1, h2]
  split_ifs with h
  · rfl
  · push Not at h
    congr 1
    have hx : 0 < sumOfProducts s x x := lt_of_le_of_ne (sumOfProducts_nonneg s x) (Ne.symm h.1)
    have hy : 0 < sumOfProducts s y y := lt_of_le_of_ne (sumOfProducts_nonneg s y) (Ne.symm h.2)
    rw [Real.sqrt_mul (mul_self_nonneg a), Real.sqrt_mul (mul_self_nonneg c), Real.sqrt_mul_self ha.le, Real.sqrt_mul_self hc.le]
    have := Real.sqrt_pos.mpr hx
    have := Real.sqrt_pos.mpr hy
    field_simp

variable [Fintype ι]

theorem observedCorrelation_affine (x y : ι → Option ℝ) {a c : ℝ} (ha : 0 < a) (hc : 0 < c) (b d : ℝ) :
    observedCorrelation (fun i => (x i).map (fun v => a * v + b)) (fun i => (y i).map (fun v => c * v + d)) = observedCorrelation x y := by
  unfold observedCorrelation
  simp only [Option.isSome_map]
  refine Eq.trans ?_ (correlation_affine _ _ _ ha hc b d)
  refine correlation_congr (fun i hi => ?_) (fun i hi => ?_)
  · obtain ⟨v, hv⟩ := Option.isSome_iff_exists.mp (Finset.mem_filter.mp hi).2.1
    simp [hv]
  · obtain ⟨v, hv⟩ := Option.isSome_iff_exists.mp (Finset.mem_filter.mp hi).2.2
    simp [hv]

theorem observedCorrelation_comm (x y : ι → Option ℝ) : observedCorrelation x y = observedCorrelation y x := by
  unfold observedCorrelation
  rw [correlation_symm]
  simp only [and_comm]

theorem standardized_affine (x : ι → Option ℝ) {a : ℝ} (ha : 0 < a) (b : ℝ) : standardized (fun i => (x i).map (fun v => a * v + b)) = standardized x := by
  funext i
  unfold standardized
  simp only [Option.isSome_map]
  set s := Finset.univ.filter (fun i => (x i).isSome = true) with hs
  set X := fun i => (x i).getD 0 with hX
  have hcong : ∀ i ∈ s, ((x i).map (fun v => a * v + b)).getD 0 = a * X i + b := fun i hi => by
    obtain ⟨v, hv⟩ := Option.isSome_iff_exists.mp (Finset.mem_filter.mp hi).2
    simp [hv, hX]
  have h1 : sumOfProducts s (fun i => ((x i).map (fun v => a * v + b)).getD 0) (fun i => ((x i).map (fun v => a * v + b)).getD 0) = a * a * sumOfProducts s X X := by
    rw [sumOfProducts_congr hcong hcong, sumOfProducts_affine]
  rw [h1]
  have h2 : a * a * sumOfProducts s X X = 0 ↔ sumOfProducts s X X = 0 := by
    rw [mul_eq_zero]
    exact or_iff_right (by positivity)
  simp only [h2]
  split_ifs with h
  · rfl
  · cases hxi : x i with
    | none => rfl
    | some v =>
      have hi : i ∈ s := by simp [hs, hxi]
      have hm : sampleMean s (fun i => ((x i).map (fun v => a * v + b)).getD 0) = a * sampleMean s X + b := by
        rw [← sampleMean_affine ⟨i, hi⟩]
        unfold sampleMean
        rw [Finset.sum_congr rfl hcong]
      simp only [Option.map_some]
      congr 1
      have hcard : 2 ≤ s.card := by
        by_contra hlt
        exact h (sumOfProducts_card (by omega))
      have hpos : (0 : ℝ) < (s.card : ℝ) - 1 := by
        have : (2 : ℝ) ≤ s.card := by exact_mod_cast hcard
        linarith
      have hss : 0 < sumOfProducts s X X := lt_of_le_of_ne (sumOfProducts_nonneg s X) (Ne.symm h)
      rw [hm, mul_div_assoc, Real.sqrt_mul (by positivity), Real.sqrt_mul_self ha.le]
      have := Real.sqrt_pos.mpr (div_pos hss hpos)
      field_simp
      ring

/-- Standardizing a variable does not change its correlations. -/
theorem observedCorrelation_standardized (x y : ι → Option ℝ) : observedCorrelation (standardized x) y = observedCorrelation x y := by
  set s := Finset.univ.filter (fun i => (x i).isSome = true) with hs
  set X := fun i => (x i).getD 0 with hX
  by_cases h : sumOfProducts s X X = 0
  · have h1 : standardized x = fun _ => none := by
      funext i
      unfold standardized
      exact if_pos h
    have h2 : ∀ t : Finset ι, t ⊆ s → sumOfProducts t X X = 0 := by
      intro t ht
      rcases t.eq_empty_or_nonempty with rfl | hne
      · simp [sumOfProducts]
      · rw [sumOfProducts_zero] at h ⊢
        intro i hi
        have hm : sampleMean t X = sampleMean s X := by
          have hc : (t.card : ℝ) ≠ 0 := by exact_mod_cast hne.card_pos.ne'
          have : ∑ j ∈ t, X j = t.card * sampleMean s X := by
            rw [Finset.sum_congr rfl (fun j hj => h j (ht hj)), Finset.sum_const, nsmul_eq_mul]
          rw [sampleMean, this, mul_div_cancel_left₀ _ hc]
        rw [hm]
        exact h i (ht hi)
    rw [h1]
    unfold observedCorrelation correlation
    rw [if_pos (Or.inl ?_), if_pos (Or.inl ?_)]
    · exact h2 _ (fun i hi => by
        rw [Finset.mem_filter] at hi
        exact Finset.mem_filter.mpr ⟨hi.1, hi.2.1⟩)
    · simp [sumOfProducts]
  · have hcard : 2 ≤ s.card := by
      by_contra hlt
      exact h (sumOfProducts_card (by omega))
    have hpos : (0 : ℝ) < (s.card : ℝ) - 1 := by
      have : (2 : ℝ) ≤ s.card := by exact_mod_cast hcard
      linarith
    have hss : 0 < sumOfProducts s X X := lt_of_le_of_ne (sumOfProducts_nonneg s X) (Ne.symm h)
    have hsd := Real.sqrt_pos.mpr (div_pos hss hpos)
    have h1 : standardized x = fun i => (x i).map (fun v => (Real.sqrt (sumOfProducts s X X / (s.card - 1)))⁻¹ * v + -(sampleMean s X / Real.sqrt (sumOfProducts s X X / (s.card - 1)))) := by
      funext i
      unfold standardized
      dsimp only
      rw [if_neg h]
      congr 1
      funext v
      ring
    have h2 : y = fun i => (y i).map (fun v => 1 * v + 0) := by
      funext i
      cases y i <;> simp
    rw [h1]
    conv_lhs => rw [h2]
    exact observedCorrelation_affine x y (inv_pos.mpr hsd) one_pos _ _

end

/-! ### data in other units -/

variable {a b : Int → String → ℝ} {df : LongData ℝ}

theorem changeUnits_rows_iff {P : Int → Int → Prop} : (∃ r ∈ (changeUnits a b df).rows, P r.id r.period) ↔ ∃ r ∈ df.rows, P r.id r.period := by
  simp [changeUnits]

theorem changeUnits_index (h : IndexOk df) : IndexOk (changeUnits a b df) := by
  refine ⟨h.idNodup, h.periodNodup, ?_, ?_⟩
  · intro r hr
    obtain ⟨r', hr', rfl⟩ := List.mem_map.mp hr
    exact h.ids r' hr'
  · intro r hr
    obtain ⟨r', hr', rfl⟩ := List.mem_map.mp hr
    exact h.periods r' hr'

theorem changeUnits_periods (h : NoUnusedPeriods df) : NoUnusedPeriods (changeUnits a b df) := by
  intro p hp
  exact changeUnits_rows_iff (P := fun _ q => q = p) |>.mpr (h p hp)

theorem changeUnits_keys (h : UniqueKeys df) : UniqueKeys (changeUnits a b df) := by
  unfold UniqueKeys changeUnits at *
  rw [List.map_map]
  exact h

theorem changeUnits_idsOf {ids : List Int} (h : IdsOf df ids) : IdsOf (changeUnits a b df) ids := by
  refine ⟨h.1, fun x => ?_⟩
  exact (h.2 x).trans (changeUnits_rows_iff (P := fun i _ => i = x)).symm

theorem changeUnits_periodsOf {pers : List Int} (h : PeriodsOf df pers) : PeriodsOf (changeUnits a b df) pers := by
  refine ⟨h.1, fun x => ?_⟩
  exact (h.2 x).trans (changeUnits_rows_iff (P := fun _ p => p = x)).symm

/-- A cell in the new units. -/
theorem changeUnits_cellIs {ids pers : List Int} {i t : ℕ} {c : String} {w : Option ℝ} (h : CellIs df ids pers i t c w) :
    CellIs (changeUnits a b df) ids pers i t c (w.map (fun y => a (pers.getD t 0) c * y + b (pers.getD t 0) c)) := by
  obtain ⟨r, hr, rfl⟩ := h
  cases r with
  | none =>
    refine ⟨none, ⟨hr.1, fun r hr' => ?_⟩, rfl⟩
    obtain ⟨r', hr'', rfl⟩ := List.mem_map.mp hr'
    exact hr.2 r' hr''
  | some r =>
    obtain ⟨h1, h2, h3⟩ := hr
    refine ⟨some _, ⟨List.mem_map.mpr ⟨r, h1, rfl⟩, h2, h3⟩, ?_⟩
    rw [List.getD_eq_getElem?_getD, h3, Option.getD_some]
    rfl

/-- A table of correlations is determined by the correlations. -/
theorem isCorrelationTable_unique {κ : Type} {n : ℕ} {items : List κ} {label : κ → String} {V V' : ℕ → κ → Option ℝ → Prop} {out out' : CorrTable} (h : IsCorrelationTable n items label V out)
    (h' : IsCorrelationTable n items label V' out')
    (he : ∀ k ∈ items, ∀ l ∈ items, ∃ x y x' y' : Fin n → Option ℝ, (∀ i : Fin n, V i k (x i)) ∧ (∀ i : Fin n, V i l (y i)) ∧ (∀ i : Fin n, V' i k (x' i)) ∧ (∀ i : Fin n, V' i l (y' i)) ∧
      observedCorrelation x y = observedCorrelation x' y') : out = out' := by
  obtain ⟨rows, cols, cells⟩ := out
  obtain ⟨rows', cols', cells'⟩ := out'
  have hr := h.rows
  have hr' := h'.rows
  have hc := h.cols
  have hc' := h'.cols
  have hs := h.shape
  have hs' := h'.shape
  simp only at hr hr' hc hc'
  unfold TableShape at hs hs'
  simp only at hs hs'
  subst hr hr' hc hc'
  have : cells = cells' := by
    refine List.ext_getElem (hs.1.trans hs'.1.symm) (fun a h1 h2 => ?_)
    have l1 := hs.2 _ (List.getElem_mem h1)
    have l2 := hs'.2 _ (List.getElem_mem h2)
    refine List.ext_getElem (l1.trans l2.symm) (fun b h3 h4 => ?_)
    have ha : a < items.length := by simpa [hs.1] using h1
    have hb : b < items.length := by simpa [l1] using h3
    obtain ⟨x, y, x', y', hx, hy, hx', hy', hxy⟩ := he _ (List.getElem_mem ha) _ (List.getElem_mem hb)
    have e1 := h.entries a b _ _ (List.getElem?_eq_getElem ha) (List.getElem?_eq_getElem hb) x y hx hy
    have e2 := h'.entries a b _ _ (List.getElem?_eq_getElem ha) (List.getElem?_eq_getElem hb) x' y' hx' hy'
    unfold entry2 at e1 e2
    simp only at e1 e2
    rw [List.getElem?_eq_getElem h1, Option.bind_some, List.getElem?_eq_getElem h3] at e1
    rw [List.getElem?_eq_getElem h2, Option.bind_some, List.getElem?_eq_getElem h4] at e2
    rw [Option.some.inj e1, Option.some.inj e2, hxy]
  rw [this]

end Skill
