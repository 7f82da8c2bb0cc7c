import Verif.Model.ProcessModel
import Verif.Spec.ModelSpec
import Mathlib.Tactic
/-
Lemmas on the construction of update_info.
-/
namespace Skill

/-- Index of a row. -/
def URow.key (r : URow) : Nat × String := (r.period, r.var)
def UAssign.key (s : UAssign) : Nat × String := (s.period, s.var)

theorem setRow_keys (rows : List URow) (p v f purp) :
    (setRow rows p v f purp).map URow.key =
      if (p, v) ∈ rows.map URow.key then rows.map URow.key else rows.map URow.key ++ [(p, v)] := by
  induction rows with
  | nil => simp [setRow, URow.key]
  | cons r rs ih =>
    simp only [setRow]
    by_cases h : r.period = p ∧ r.var = v
    · simp [h, URow.key]
    · have hk : ¬ (p, v) = r.key := by
        simp only [URow.key, Prod.mk.injEq]; intro h'; exact h ⟨h'.1.symm, h'.2.symm⟩
      simp only [h, if_false, List.map_cons, ih, List.mem_cons, hk, false_or]
      split <;> simp

theorem mem_setRow {rows : List URow} (hn : (rows.map URow.key).Nodup) {p v f purp} {r : URow} :
    r ∈ setRow rows p v f purp ↔
      (r ∈ rows ∧ r.key ≠ (p, v)) ∨
      (∃ r0 ∈ rows, r0.key = (p, v) ∧ r = ⟨p, v, if f ∈ r0.trueCols then r0.trueCols else r0.trueCols ++ [f], purp⟩) ∨
      ((p, v) ∉ rows.map URow.key ∧ r = ⟨p, v, [f], purp⟩) := by
  induction rows with
  | nil => simp [setRow]
  | cons q qs ih =>
    simp only [List.map_cons, List.nodup_cons] at hn
    have ih := ih hn.2
    simp only [setRow]
    by_cases h : q.period = p ∧ q.var = v
    · have hq : q.key = (p, v) := by simp [URow.key, h]
      have hnot : (p, v) ∉ qs.map URow.key := by rw [← hq]; exact hn.1
      simp only [h, and_self, if_true, List.mem_cons, List.map_cons, hq]
      constructor
      · rintro (rfl | hr)
        · right; left; exact ⟨q, Or.inl rfl, hq, by simp⟩
        · left
          refine ⟨Or.inr hr, ?_⟩
          intro hk; exact hnot (by rw [← hk]; exact List.mem_map_of_mem hr)
      · rintro (⟨rfl | hr, hk⟩ | ⟨r0, rfl | h0, hk, rfl⟩ | ⟨h1, _⟩)
        · exact absurd hq hk
        · exact Or.inr hr
        · left; simp
        · exact absurd (by rw [← hk]; exact List.mem_map_of_mem h0) hnot
        · simp at h1
    · have hq : ¬ q.key = (p, v) := by
        simp only [URow.key, Prod.mk.injEq]; exact h
      have hq' : ¬ (p, v) = q.key := fun e => hq e.symm
      simp only [h, if_false, List.mem_cons, ih, List.map_cons, hq', false_or]
      constructor
      · rintro (rfl | ⟨h1, h2⟩ | ⟨r0, h0, hk, e⟩ | h3)
        · exact Or.inl ⟨Or.inl rfl, hq⟩
        · exact Or.inl ⟨Or.inr h1, h2⟩
        · exact Or.inr (Or.inl ⟨r0, Or.inr h0, hk, e⟩)
        · exact Or.inr (Or.inr h3)
      · rintro (⟨rfl | h1, h2⟩ | ⟨r0, rfl | h0, hk, e⟩ | h3)
        · exact Or.inl rfl
        · exact Or.inr (Or.inl ⟨h1, h2⟩)
        · exact absurd hk hq
        · exact Or.inr (Or.inr (Or.inl ⟨r0, h0, hk, e⟩))
        · exact Or.inr (Or.inr (Or.inr h3))

/-- The fold of process_model.py:260-269. -/
def buildRows (as : List UAssign) : List URow :=
  as.foldl (fun rows s => setRow rows s.period s.var s.factor s.purpose) []

theorem buildRows_snoc (as : List UAssign) (s : UAssign) :
    buildRows (as ++ [s]) = setRow (buildRows as) s.period s.var s.factor s.purpose := by
  simp [buildRows]

theorem buildRows_nodup (as : List UAssign) : ((buildRows as).map URow.key).Nodup := by
  induction as using List.reverseRecOn with
  | nil => simp [buildRows]
  | append_singleton as s ih =>
    rw [buildRows_snoc, setRow_keys]
    split
    · exact ih
    · rw [List.nodup_append]
      refine ⟨ih, by simp, ?_⟩
      rename_i h
      intro a ha b hb hab
      simp only [List.mem_singleton] at hb
      subst hb; subst hab; exact h ha

theorem buildRows_keys_sublist (as : List UAssign) :
    List.Sublist ((buildRows as).map URow.key) (as.map UAssign.key) := by
  induction as using List.reverseRecOn with
  | nil => simp [buildRows]
  | append_singleton as s ih =>
    rw [buildRows_snoc, setRow_keys]
    split
    · rw [List.map_append]; exact ih.trans (List.sublist_append_left _ _)
    · rw [List.map_append]; exact ih.append (List.Sublist.refl _)

theorem mem_buildRows_keys (as : List UAssign) (k : Nat × String) :
    k ∈ (buildRows as).map URow.key ↔ k ∈ as.map UAssign.key := by
  induction as using List.reverseRecOn with
  | nil => simp [buildRows]
  | append_singleton as s ih =>
    rw [buildRows_snoc, setRow_keys, List.map_append, List.mem_append, ← ih]
    have : s.key = (s.period, s.var) := rfl
    split
    · rename_i h
      simp only [List.map_cons, List.map_nil, List.mem_singleton, this]
      constructor
      · exact Or.inl
      · rintro (h' | rfl)
        · exact h'
        · exact h
    · simp [this]

theorem buildRows_trueCols (as : List UAssign) {r : URow} (hr : r ∈ buildRows as) (f : String) :
    f ∈ r.trueCols ↔ ∃ s ∈ as, s.key = r.key ∧ s.factor = f := by
  induction as using List.reverseRecOn generalizing r with
  | nil => simp [buildRows] at hr
  | append_singleton as s ih =>
    rw [buildRows_snoc, mem_setRow (buildRows_nodup as)] at hr
    simp only [List.mem_append, List.mem_singleton, or_and_right, exists_or, exists_eq_left]
    rcases hr with ⟨hr, hk⟩ | ⟨r0, h0, hk, rfl⟩ | ⟨hk, rfl⟩
    · rw [ih hr]
      constructor
      · exact Or.inl
      · rintro (h | ⟨h, _⟩)
        · exact h
        · exact absurd (show r.key = (s.period, s.var) from h.symm) hk
    · have := ih h0
      have e : URow.key ⟨s.period, s.var, if s.factor ∈ r0.trueCols then r0.trueCols else r0.trueCols ++ [s.factor], s.purpose⟩ = r0.key := by
        rw [hk]; rfl
      rw [e]
      have hk' : s.key = r0.key := by rw [hk]; rfl
      simp only [hk', true_and]
      by_cases hf : s.factor ∈ r0.trueCols
      · simp only [hf, if_true, this]
        constructor
        · exact Or.inl
        · rintro (h | rfl)
          · exact h
          · exact this.mp hf |> fun h => h
      · simp only [hf, if_false, List.mem_append, List.mem_singleton, this]
        constructor <;> rintro (h | h)
        · exact Or.inl h
        · exact Or.inr h.symm
        · exact Or.inl h
        · exact Or.inr h.symm
    · have e : URow.key ⟨s.period, s.var, [s.factor], s.purpose⟩ = s.key := rfl
      rw [e]
      rw [mem_buildRows_keys] at hk
      simp only [List.mem_singleton, true_and]
      constructor
      · rintro rfl; exact Or.inr rfl
      · rintro (⟨q, hq, hqk, rfl⟩ | rfl)
        · exact absurd (by rw [show (s.period, s.var) = s.key from rfl, ← hqk]; exact List.mem_map_of_mem hq) hk
        · rfl

theorem buildRows_purpose (as : List UAssign) {r : URow} (hr : r ∈ buildRows as) :
    ∃ pre s post, as = pre ++ s :: post ∧ s.key = r.key ∧ s.purpose = r.purpose
      ∧ ∀ q ∈ post, q.key ≠ r.key := by
  induction as using List.reverseRecOn generalizing r with
  | nil => simp [buildRows] at hr
  | append_singleton as s ih =>
    rw [buildRows_snoc, mem_setRow (buildRows_nodup as)] at hr
    rcases hr with ⟨hr, hk⟩ | ⟨r0, h0, hk, rfl⟩ | ⟨hk, rfl⟩
    · obtain ⟨pre, q, post, rfl, h1, h2, h3⟩ := ih hr
      refine ⟨pre, q, post ++ [s], by simp, h1, h2, ?_⟩
      intro x hx
      rcases List.mem_append.mp hx with hx | hx
      · exact h3 x hx
      · rw [List.mem_singleton] at hx; subst hx; exact fun e => hk e.symm
    · exact ⟨as, s, [], rfl, rfl, rfl, by simp⟩
    · exact ⟨as, s, [], rfl, rfl, rfl, by simp⟩

end Skill
