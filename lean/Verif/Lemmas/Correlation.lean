import Verif.Model.CorrelationHeatmap
import Verif.Spec.Correlation
import Mathlib.Algebra.BigOperators.Fin
import Mathlib.Algebra.Order.BigOperators.Ring.Finset
/- Correlations of columns of a DataFrame. -/
namespace Skill
open Spec

/-- A finite number. -/
def FVal.toOption : FVal → Option ℝ
  | .num x => some x
  | _ => none

theorem FVal.toOption_ofCell (x : Option ℝ) : (FVal.ofCell x).toOption = x := by cases x <;> rfl

/-- A column with the values `x`. -/
def Column {n : ℕ} (xs : List FVal) (x : Fin n → Option ℝ) : Prop := xs.map FVal.toOption = List.ofFn x

def pairOf (p : FVal × FVal) : Option (ℝ × ℝ) := p.1.toOption.bind (fun x => p.2.toOption.map (fun y => (x, y)))

theorem finitePairs_eq (xs ys : List FVal) : finitePairs xs ys = (xs.zip ys).filterMap pairOf := by
  unfold finitePairs
  congr 1
  funext p
  obtain ⟨a, b⟩ := p
  cases a <;> cases b <;> rfl

theorem sum_filterMap_ofFn {n : ℕ} {β γ : Type} (h : Fin n → β) (k : β → Option γ) (G : γ → ℝ) :
    (((List.ofFn h).filterMap k).map G).sum = ∑ i, ((k (h i)).map G).getD 0 := by
  induction n with
  | zero => simp
  | succ n ih =>
    rw [List.ofFn_succ, List.filterMap_cons, Fin.sum_univ_succ, ← ih]
    cases k (h 0) <;> simp

theorem sum_finitePairs {n : ℕ} {xs ys : List FVal} {x y : Fin n → Option ℝ} (hx : Column xs x) (hy : Column ys y) (G : ℝ × ℝ → ℝ) :
    ((finitePairs xs ys).map G).sum = ∑ i ∈ Finset.univ.filter (fun i => (x i).isSome ∧ (y i).isSome), G ((x i).getD 0, (y i).getD 0) := by
  have hz : (xs.zip ys).filterMap pairOf = ((List.ofFn (fun i => (x i, y i))).filterMap (fun p => p.1.bind (fun a => p.2.map (fun b => (a, b))))) := by
    have e1 : (xs.zip ys).map (Prod.map FVal.toOption FVal.toOption) = List.ofFn (fun i => (x i, y i)) := by
      rw [← List.zip_map, hx, hy]
      refine List.ext_getElem? (fun i => ?_)
      by_cases hi : i < n <;> simp [List.getElem?_zip_eq_some, List.zip_eq_zipWith, List.getElem?_zipWith, hi]
    rw [← e1, List.filterMap_map]
    rfl
  rw [finitePairs_eq, hz, sum_filterMap_ofFn, Finset.sum_filter]
  refine Finset.sum_congr rfl (fun i _ => ?_)
  cases x i <;> cases y i <;> simp

theorem length_finitePairs {n : ℕ} {xs ys : List FVal} {x y : Fin n → Option ℝ} (hx : Column xs x) (hy : Column ys y) :
    ((finitePairs xs ys).length : ℝ) = (Finset.univ.filter (fun i => (x i).isSome ∧ (y i).isSome)).card := by
  have := sum_finitePairs hx hy (fun _ => 1)
  simpa using this

theorem sumOfProducts_nonneg {ι : Type} (s : Finset ι) (x : ι → ℝ) : 0 ≤ sumOfProducts s x x := Finset.sum_nonneg (fun _ _ => mul_self_nonneg _)

/-- pandas computes the correlation of the jointly observed values. -/
theorem pearson_eq {n : ℕ} {xs ys : List FVal} {x y : Fin n → Option ℝ} (hx : Column xs x) (hy : Column ys y) : pearson xs ys = observedCorrelation x y := by
  set s := Finset.univ.filter (fun i => (x i).isSome ∧ (y i).isSome) with hs
  set X : Fin n → ℝ := fun i => (x i).getD 0
  set Y : Fin n → ℝ := fun i => (y i).getD 0
  have hmx : ((finitePairs xs ys).map Prod.fst).sum / (finitePairs xs ys).length = sampleMean s X := by
    rw [sum_finitePairs hx hy, length_finitePairs hx hy]; rfl
  have hmy : ((finitePairs xs ys).map Prod.snd).sum / (finitePairs xs ys).length = sampleMean s Y := by
    rw [sum_finitePairs hx hy, length_finitePairs hx hy]; rfl
  unfold pearson observedCorrelation correlation
  dsimp only
  rw [hmx, hmy]
  simp only [sum_finitePairs hx hy]
  have e1 : ∑ i ∈ Finset.univ.filter (fun i => (x i).isSome ∧ (y i).isSome), ((x i).getD 0 - sampleMean s X) ^ 2 = sumOfProducts s X X := Finset.sum_congr rfl (fun i _ => sq _)
  have e2 : ∑ i ∈ Finset.univ.filter (fun i => (x i).isSome ∧ (y i).isSome), ((y i).getD 0 - sampleMean s Y) ^ 2 = sumOfProducts s Y Y := Finset.sum_congr rfl (fun i _ => sq _)
  have e3 : ∑ i ∈ Finset.univ.filter (fun i => (x i).isSome ∧ (y i).isSome), ((x i).getD 0 - sampleMean s X) * ((y i).getD 0 - sampleMean s Y) = sumOfProducts s X Y := rfl
  rw [e1, e2, e3, Real.sqrt_mul (sumOfProducts_nonneg s X)]
  have hz : Real.sqrt (sumOfProducts s X X) * Real.sqrt (sumOfProducts s Y Y) = 0 ↔ sumOfProducts s X X = 0 ∨ sumOfProducts s Y Y = 0 := by
    rw [mul_eq_zero, Real.sqrt_eq_zero (sumOfProducts_nonneg s X), Real.sqrt_eq_zero (sumOfProducts_nonneg s Y)]
  simp only [hz]
  rfl

/-! ### correlations are between -1 and 1 -/

theorem sumOfProducts_comm {ι : Type} (s : Finset ι) (x y : ι → ℝ) : sumOfProducts s x y = sumOfProducts s y x := Finset.sum_congr rfl (fun _ _ => mul_comm _ _)

theorem correlation_symm {ι : Type} (s : Finset ι) (x y : ι → ℝ) : correlation s x y = correlation s y x := by
  unfold correlation
  rw [sumOfProducts_comm s x y, mul_comm (Real.sqrt _)]
  simp only [or_comm]

theorem correlation_self {ι : Type} (s : Finset ι) (x : ι → ℝ) {r : ℝ} (h : correlation s x x = some r) : r = 1 := by
  unfold correlation at h
  split_ifs at h with h0
  push Not at h0
  rw [← Option.some.inj h, Real.mul_self_sqrt (sumOfProducts_nonneg s x)]
  exact div_self h0.1

theorem correlation_abs_le {ι : Type} (s : Finset ι) (x y : ι → ℝ) {r : ℝ} (h : correlation s x y = some r) : |r| ≤ 1 := by
  unfold correlation at h
  split_ifs at h with h0
  push Not at h0
  have hx : 0 < sumOfProducts s x x := lt_of_le_of_ne (sumOfProducts_nonneg s x) (Ne.symm h0.1)
  have hy : 0 < sumOfProducts s y y := lt_of_le_of_ne (sumOfProducts_nonneg s y) (Ne.symm h0.2)
  rw [← Option.some.inj h, abs_div, abs_of_pos (by positivity : (0 : ℝ) < Real.sqrt (sumOfProducts s x x) * Real.sqrt (sumOfProducts s y y)), div_le_one (by positivity)]
  rw [← Real.sqrt_mul hx.le]
  apply Real.abs_le_sqrt
  have := Finset.sum_mul_sq_le_sq_mul_sq s (fun i => x i - sampleMean s x) (fun i => y i - sampleMean s y)
  unfold sumOfProducts
  simpa only [sq] using this

end Skill
