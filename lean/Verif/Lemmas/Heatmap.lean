import Verif.Model.CorrelationHeatmap
import Verif.Spec.Correlation
/- Lemmas on the heatmap. -/
namespace Skill
open Spec

theorem rint_close (x : ℝ) : |(rint x : ℝ) - x| ≤ 1 / 2 := by
  have h1 := Int.floor_le x
  have h2 := Int.lt_floor_add_one x
  unfold rint
  split_ifs with a b c
  · rw [abs_le]; constructor <;> linarith
  · push_cast; rw [abs_le]; constructor <;> linarith
  · rw [abs_le]; constructor <;> linarith
  · push_cast; rw [abs_le]; constructor <;> linarith

theorem roundDigits_rounded (d : ℕ) (x : ℝ) : IsRounded d x (roundDigits d x) := by
  refine ⟨⟨_, rfl⟩, ?_⟩
  have hp : (0 : ℝ) < 10 ^ d := by positivity
  unfold roundDigits
  have : (rint (x * 10 ^ d) : ℝ) / 10 ^ d - x = (rint (x * 10 ^ d) - x * 10 ^ d) / 10 ^ d := by field_simp
  rw [this, abs_div, abs_of_pos hp]
  exact div_le_div_of_nonneg_right (rint_close _) hp.le

theorem maskEntry_iff (u d : Bool) (i j : ℕ) : maskEntry u d i j = true ↔ Shown u d i j := by
  unfold maskEntry Shown
  split_ifs with h1 h2
  · simp [h1]
  · simp only [h2, true_and, or_iff_right h1]
    constructor
    · exact fun h => Or.inr h
    · rintro (⟨h, _⟩ | h)
      · omega
      · exact h
  · have : j = i := by omega
    simp [this]

/-- The positions at which the mask is True. -/
def truePositions (bs : List Bool) : List ℕ := (List.range bs.length).filter (fun i => bs.getD i false)

theorem truePositions_cons (b : Bool) (bs : List Bool) : truePositions (b :: bs) = (if b then [0] else []) ++ (truePositions bs).map (· + 1) := by
  unfold truePositions
  rw [List.length_cons, List.range_succ_eq_map, List.filter_cons]
  simp only [List.getD_cons_zero]
  have : List.filter (fun i => (b :: bs).getD i false) ((List.range bs.length).map Nat.succ) = ((List.range bs.length).filter (fun i => bs.getD i false)).map (· + 1) := by
    rw [List.filter_map]
    congr 1
  rw [this]
  cases b <;> simp

theorem truePositions_pairwise (bs : List Bool) : (truePositions bs).Pairwise (· < ·) := List.pairwise_lt_range.filter _

theorem mem_truePositions {bs : List Bool} {i : ℕ} : i ∈ truePositions bs ↔ bs[i]? = some true := by
  unfold truePositions
  rw [List.mem_filter, List.mem_range, List.getD_eq_getElem?_getD]
  constructor
  · rintro ⟨h1, h2⟩
    rw [List.getElem?_eq_getElem h1] at h2 ⊢
    simpa using h2
  · intro h
    exact ⟨(List.getElem?_eq_some_iff.mp h).1, by simp [h]⟩

theorem boolSelect_getElem? {β : Type} (bs : List Bool) (xs : List β) (a : ℕ) (h : bs.length ≤ xs.length) :
    (boolSelect bs xs)[a]? = (truePositions bs)[a]?.bind (fun i => xs[i]?) := by
  induction bs generalizing xs a with
  | nil => simp [boolSelect, truePositions]
  | cons b bs ih =>
    cases xs with
    | nil => simp at h
    | cons x xs =>
      rw [truePositions_cons]
      have h' : bs.length ≤ xs.length := by simpa using h
      cases b with
      | true =>
        simp only [boolSelect, if_true]
        cases a with
        | zero => simp
        | succ a =>
          rw [List.getElem?_cons_succ, ih xs a h']
          simp only [List.singleton_append, List.getElem?_cons_succ, List.getElem?_map]
          cases (truePositions bs)[a]? <;> simp
      | false =>
        simp only [boolSelect, Bool.false_eq_true, if_false, List.nil_append]
        rw [ih xs a h', List.getElem?_map]
        cases (truePositions bs)[a]? <;> simp

theorem truePositions_length_eq {β : Type} (bs : List Bool) (xs : List β) (h : bs.length ≤ xs.length) : (boolSelect bs xs).length = (truePositions bs).length := by
  induction bs generalizing xs with
  | nil => simp [boolSelect, truePositions]
  | cons b bs ih =>
    cases xs with
    | nil => simp at h
    | cons x xs =>
      have h' : bs.length ≤ xs.length := by simpa using h
      rw [truePositions_cons]
      cases b <;> simp [boolSelect, ih xs h']

theorem entry2_maskCells (r : ℕ) (u d : Bool) (cells : List (List (Option ℝ))) (i j : ℕ) :
    entry2 (maskCells r u d cells) i j = (entry2 cells i j).map (fun x => if maskEntry u d i j then x.map (roundDigits r) else none) := by
  unfold entry2 maskCells
  rw [List.getElem?_mapIdx]
  cases cells[i]? with
  | none => rfl
  | some row =>
    simp only [Option.map_some, Option.bind_some, List.getElem?_mapIdx]

theorem shownValue_mask (r : ℕ) (u d : Bool) (i j : ℕ) (x : Option ℝ) :
    ShownValue r (Shown u d i j) x (if maskEntry u d i j then x.map (roundDigits r) else none) := by
  constructor
  · intro hs y hy
    rw [if_pos ((maskEntry_iff u d i j).mpr hs), hy]
    exact ⟨_, rfl, roundDigits_rounded r y⟩
  · rintro (hs | rfl)
    · rw [if_neg (fun h => hs ((maskEntry_iff u d i j).mp h))]
    · split_ifs <;> rfl

end Skill
