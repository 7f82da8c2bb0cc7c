import Verif.Model.TransitionFunctions
import Mathlib.Algebra.BigOperators.Fin
/-
Evaluation of the transition functions.
-/
namespace Skill

theorem jnpDot_map {β : Type _} (l : List β) (a b : β → ℝ) : jnpDot (l.map a) (l.map b) = .ok (l.map (fun f => b f * a f)).sum := by
  rw [jnpDot, if_pos (by simp)]
  congr 2
  induction l with
  | nil => rfl
  | cons x xs ih => simp only [List.map_cons, List.zipWith_cons_cons, ih, mul_comm]

theorem lastParam_append (l : List ℝ) (c : ℝ) : lastParam (l ++ [c]) = .ok c := by
  simp [lastParam]

theorem combinations2_map {β γ : Type _} (g : β → γ) (l : List β) : combinations2 (l.map g) = (combinations2 l).map (Prod.map g g) := by
  induction l with
  | nil => rfl
  | cons x xs ih => simp [combinations2, ih, Function.comp_def]

theorem combinations2_mem {β : Type _} {l : List β} {p : β × β} (h : p ∈ combinations2 l) : p.1 ∈ l ∧ p.2 ∈ l := by
  induction l with
  | nil => cases h
  | cons x xs ih =>
    rw [combinations2, List.mem_append, List.mem_map] at h
    rcases h with ⟨y, hy, rfl⟩ | h
    · simp [hy]
    · simp [(ih h).1, (ih h).2]

theorem map_range_get (fs : List String) : (List.range fs.length).map (fun i => fs.getD i "") = fs := by
  refine List.ext_getElem (by simp) (fun i h1 h2 => ?_)
  simp only [List.getElem_map, List.getElem_range]
  rw [List.getD_eq_getElem?_getD, List.getElem?_eq_getElem h2]
  rfl

theorem addInteractions_eq (states : List ℝ) (c : Nat × Nat → ℝ) (L : List (Nat × Nat)) (hL : ∀ p ∈ L, p.1 < states.length ∧ p.2 < states.length) :
    ∀ res, addInteractions states res ((L.map c).zip L) = .ok (res + (L.map (fun p => c p * states.getD p.1 0 * states.getD p.2 0)).sum) := by
  induction L with
  | nil => intro res; simp [addInteractions]
  | cons p ps ih =>
    intro res
    obtain ⟨h1, h2⟩ := hL p (by simp)
    have e1 : pyIndex states p.1 = .ok (states.getD p.1 0) := by simp [pyIndex, h1]
    have e2 : pyIndex states p.2 = .ok (states.getD p.2 0) := by simp [pyIndex, h2]
    simp only [List.map_cons, List.zip_cons_cons, addInteractions, e1, e2]
    have := ih (fun q hq => hL q (by simp [hq])) (res + c p * states.getD p.1 0 * states.getD p.2 0)
    refine Eq.trans this ?_
    rw [List.sum_cons, ← add_assoc]

/-- The loop over the interactions of factors. -/
theorem addInteractions_factors (fs : List String) (x : String → ℝ) (c : String × String → ℝ) (res : ℝ) :
    addInteractions (fs.map x) res (((combinations2 fs).map c).zip (combinations2 (List.range fs.length))) =
      .ok (res + ((combinations2 fs).map (fun p => c p * x p.1 * x p.2)).sum) := by
  have hc : combinations2 fs = (combinations2 (List.range fs.length)).map (Prod.map (fun i => fs.getD i "") (fun i => fs.getD i "")) := by
    rw [← combinations2_map, map_range_get]
  have hmem : ∀ p ∈ combinations2 (List.range fs.length), p.1 < (fs.map x).length ∧ p.2 < (fs.map x).length := by
    intro p hp
    have := combinations2_mem hp
    simpa using this
  have hx : ∀ i, i < fs.length → (fs.map x).getD i 0 = x (fs.getD i "") := by
    intro i hi
    simp [hi]
  rw [hc, List.map_map, addInteractions_eq _ _ _ hmem, List.map_map]
  congr 3
  refine List.map_congr_left (fun p hp => ?_)
  have := combinations2_mem hp
  rw [List.mem_range, List.mem_range] at this
  rw [hx _ this.1, hx _ this.2]
  rfl

/-- Sum over all pairs of positions i < j. -/
theorem sum_combinations2 {β : Type _} (l : List β) (g : β × β → ℝ) :
    ((combinations2 l).map g).sum = ∑ i : Fin l.length, ∑ j : Fin l.length, if i < j then g (l.get i, l.get j) else 0 := by
  induction l with
  | nil => rfl
  | cons x xs ih =>
    rw [combinations2, List.map_append, List.sum_append, ih, List.map_map]
    have : ∀ (f : Fin (xs.length + 1) → Fin (xs.length + 1) → ℝ), (∑ i : Fin (x :: xs).length, ∑ j : Fin (x :: xs).length, f i j) =
        ∑ i : Fin (xs.length + 1), ∑ j : Fin (xs.length + 1), f i j := fun f => rfl
    rw [this (fun i j => if i < j then g ((x :: xs).get i, (x :: xs).get j) else 0), Fin.sum_univ_succ, Fin.sum_univ_succ]
    have e1 : (List.map (g ∘ fun y => (x, y)) xs).sum = ∑ j : Fin xs.length, g (x, xs.get j) := by
      have := List.sum_ofFn (f := fun j : Fin xs.length => g (x, xs.get j))
      rw [← this]
      congr 1
      conv_lhs => rw [← List.ofFn_get xs]
      rw [List.map_ofFn]
      rfl
    rw [e1]
    congr 1
    · simp
    · refine Finset.sum_congr rfl (fun i _ => ?_)
      rw [Fin.sum_univ_succ]
      simp

theorem zipWith_map {β γ : Type _} (l : List β) (F : ℝ → ℝ → γ) (a b : β → ℝ) : List.zipWith F (l.map a) (l.map b) = l.map (fun f => F (a f) (b f)) := by
  induction l with
  | nil => rfl
  | cons x xs ih => simp [ih]

theorem expLogWeight_eq {g : ℝ} (h : 0 ≤ g) (x : ℝ) : expLogWeight g x = g * Real.exp x := by
  unfold expLogWeight
  split
  · rename_i h0; rw [h0, zero_mul]
  · rename_i h0; rw [Real.exp_add, Real.exp_log (lt_of_le_of_ne h (Ne.symm h0))]

end Skill
