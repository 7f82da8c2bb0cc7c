import Verif.Lemmas.Combination
import Verif.Lemmas.SamePatternData
/- The arrays of an individual whose data are a combination of the data of two other individuals. -/
namespace Skill
open Matrix Spec

theorem combines_missing {m : ModelDict ℝ} {a : ℝ} {r₁ r₂ r₃ : Option (LongRow ℝ)} (h : CombinesRows m a r₁ r₂ r₃) : SameMissings m r₁ r₂ ∧ SameMissings m r₁ r₃ := by
  refine ⟨fun c hc => ?_, fun c hc => ?_⟩
  · rcases h c hc with ⟨h1, h2, h3⟩ | ⟨u, v, h1, h2, h3⟩ <;> rw [h1, h2] <;> simp
  · rcases h c hc with ⟨h1, h2, h3⟩ | ⟨u, v, h1, h2, h3⟩ <;> rw [h1, h3] <;> simp

theorem base_combines {m : ModelDict ℝ} {a : ℝ} {r₁ r₂ r₃ : Option (LongRow ℝ)} (h : CombinesRows m a r₁ r₂ r₃) {c : String} (hc : c = "constant" ∨ UsedColumn m c) :
    Combines a (baseValue r₁ c) (baseValue r₂ c) (baseValue r₃ c) := by
  unfold baseValue
  by_cases h0 : c = "constant"
  · rw [if_pos h0, if_pos h0, if_pos h0]
    exact Or.inr ⟨1, 1, rfl, rfl, by congr 1; ring⟩
  · rw [if_neg h0, if_neg h0, if_neg h0]
    exact h c (hc.resolve_left h0)

theorem valueIs_combines {m : ModelDict ℝ} {a : ℝ} {r₁ r₂ r₃ : Option (LongRow ℝ)} (h : CombinesRows m a r₁ r₂ r₃) {c : String} (hc : c = "constant" ∨ UsedColumn m c ∨ ∃ f, Anchors m c f) :
    ∃ v₁ v₂ v₃, ValueIs m r₁ c v₁ ∧ ValueIs m r₂ c v₂ ∧ ValueIs m r₃ c v₃ ∧ Combines a v₁ v₂ v₃ := by
  obtain ⟨v, hv⟩ := exists_valueIs m r₁ c
  rcases hv with ⟨f, o, ho, he, _⟩ | ⟨hn, _⟩
  · exact ⟨_, _, _, Or.inl ⟨f, o, ho, he, rfl⟩, Or.inl ⟨f, o, ho, he, rfl⟩, Or.inl ⟨f, o, ho, he, rfl⟩, base_combines h (Or.inr (Or.inr (Or.inl ⟨f, ho⟩)))⟩
  · exact ⟨_, _, _, Or.inr ⟨hn, rfl⟩, Or.inr ⟨hn, rfl⟩, Or.inr ⟨hn, rfl⟩, base_combines h (by tauto)⟩

theorem kept_combines {m : ModelDict ℝ} {a : ℝ} {r₁ r₂ r₃ : Option (LongRow ℝ)} (h : CombinesRows m a r₁ r₂ r₃) {t : ℕ} {v₁ v₂ v₃ w₁ w₂ w₃ : Option ℝ} (hv : Combines a v₁ v₂ v₃) (h₁ : Kept m r₁ t v₁ w₁)
    (h₂ : Kept m r₂ t v₂ w₂) (h₃ : Kept m r₃ t v₃ w₃) : Combines a w₁ w₂ w₃ := by
  obtain ⟨s2, s3⟩ := combines_missing h
  rcases h₁ with ⟨i1, rfl⟩ | ⟨i1, rfl⟩
  · obtain ⟨_, rfl⟩ := h₂.resolve_right (fun x => x.1 (incomplete_missing s2 i1))
    obtain ⟨_, rfl⟩ := h₃.resolve_right (fun x => x.1 (incomplete_missing s3 i1))
    exact Or.inl ⟨rfl, rfl, rfl⟩
  · obtain ⟨_, rfl⟩ := h₂.resolve_left (fun x => i1 (incomplete_missing (sameMissings_symm s2) x.1))
    obtain ⟨_, rfl⟩ := h₃.resolve_left (fun x => i1 (incomplete_missing (sameMissings_symm s3) x.1))
    exact hv

/-- A missing value is represented by the same number in all arrays. -/
theorem combines_getD {a : ℝ} {x y z : Option ℝ} (h : Combines a x y z) (nan : ℝ) : z.getD nan = a * x.getD nan + (1 - a) * y.getD nan := by
  rcases h with ⟨rfl, rfl, rfl⟩ | ⟨u, v, rfl, rfl, rfl⟩
  · simp only [Option.getD_none]
    ring
  · rfl

/-- The three arrays of the three individuals. -/
theorem data_combines {m : ModelDict ℝ} {pm : Processed ℝ} (hpm : processModel m = .ok pm) (hd : DictKeys m) (hclash : NoNameClash m) {a : ℝ} {T : ℕ} {p₁ p₂ p₃ : Person} (hs : CombinesUpTo m a T p₁ p₂ p₃)
    {data₁ data₂ data₃ : ProcessedData ℝ} (h₁ : processData p₁.df pm.labels pm.updateInfo pm.anchoring .estimation = .ok data₁) (h₂ : processData p₂.df pm.labels pm.updateInfo pm.anchoring .estimation = .ok data₂)
    (h₃ : processData p₃.df pm.labels pm.updateInfo pm.anchoring .estimation = .ok data₃) :
    (∀ (k : ℕ) (row : URow), pm.updateInfo[k]? = some row → row.period ≤ T →
      ∃ w₁ w₂ w₃, entry2 (data₁.measurements.getD []) k p₁.i = some w₁ ∧ entry2 (data₂.measurements.getD []) k p₂.i = some w₂ ∧ entry2 (data₃.measurements.getD []) k p₃.i = some w₃ ∧ Combines a w₁ w₂ w₃) ∧
    (∀ t, IsPeriod m t → t ≤ T → ∀ j < (m.controls.getD []).length + 1,
      ∃ w₁ w₂ w₃, entry3 data₁.controls t p₁.i j = some w₁ ∧ entry3 data₂.controls t p₂.i j = some w₂ ∧ entry3 data₃.controls t p₃.i j = some w₃ ∧ Combines a w₁ w₂ w₃) ∧
    (∀ t, IsPeriod m t → t ≤ T → ∀ j < (m.observedFactors.getD []).length,
      ∃ w₁ w₂ w₃, entry3 data₁.observedFactors t p₁.i j = some w₁ ∧ entry3 data₂.observedFactors t p₂.i j = some w₂ ∧ entry3 data₃.observedFactors t p₃.i j = some w₃ ∧ Combines a w₁ w₂ w₃) := by
  obtain ⟨meas₁, hm₁, _, _, _, cell₁⟩ := C27_data_arrays hpm hd hclash p₁.index p₁.used p₁.isIds p₁.isPers h₁
  obtain ⟨meas₂, hm₂, _, _, _, cell₂⟩ := C27_data_arrays hpm hd hclash p₂.index p₂.used p₂.isIds p₂.isPers h₂
  obtain ⟨meas₃, hm₃, _, _, _, cell₃⟩ := C27_data_arrays hpm hd hclash p₃.index p₃.used p₃.isIds p₃.isPers h₃
  rw [hm₁, hm₂, hm₃, Option.getD_some, Option.getD_some, Option.getD_some]
  have hrows : ∀ t, ∃ r₁ r₂ r₃, RowOf p₁.df p₁.ids p₁.pers p₁.i t r₁ ∧ RowOf p₂.df p₂.ids p₂.pers p₂.i t r₂ ∧ RowOf p₃.df p₃.ids p₃.pers p₃.i t r₃ := by
    intro t
    obtain ⟨r₁, g1⟩ := exists_rowOf p₁.df p₁.ids p₁.pers t p₁.lt
    obtain ⟨r₂, g2⟩ := exists_rowOf p₂.df p₂.ids p₂.pers t p₂.lt
    obtain ⟨r₃, g3⟩ := exists_rowOf p₃.df p₃.ids p₃.pers t p₃.lt
    exact ⟨r₁, r₂, r₃, g1, g2, g3⟩
  refine ⟨fun k row hrow hT => ?_, fun t ht hT j hj => ?_, fun t ht hT j hj => ?_⟩
  · have hup : IsUpdate m row.period row.var := ((C01_update_info_exact hpm).2.1 _ _).mp ⟨row, List.mem_of_getElem? hrow, rfl, rfl⟩
    have ht := isUpdate_period hup
    obtain ⟨r₁, r₂, r₃, g1, g2, g3⟩ := hrows row.period
    have hsc := hs _ ht hT r₁ r₂ r₃ g1 g2 g3
    obtain ⟨v₁, v₂, v₃, k1, k2, k3, hv⟩ := valueIs_combines hsc (isUpdate_used hup)
    obtain ⟨w₁, e1, f1⟩ := (cell₁ p₁.i row.period r₁ p₁.lt ht g1).1 k row v₁ hrow rfl k1
    obtain ⟨w₂, e2, f2⟩ := (cell₂ p₂.i row.period r₂ p₂.lt ht g2).1 k row v₂ hrow rfl k2
    obtain ⟨w₃, e3, f3⟩ := (cell₃ p₃.i row.period r₃ p₃.lt ht g3).1 k row v₃ hrow rfl k3
    exact ⟨w₁, w₂, w₃, e1, e2, e3, kept_combines hsc hv f1 f2 f3⟩
  · obtain ⟨r₁, r₂, r₃, g1, g2, g3⟩ := hrows t
    have hsc := hs _ ht hT r₁ r₂ r₃ g1 g2 g3
    have hj' : j < ("constant" :: m.controls.getD []).length := by simpa using hj
    have hc : ("constant" :: m.controls.getD [])[j]? = some ("constant" :: m.controls.getD [])[j] := List.getElem?_eq_getElem hj'
    generalize ("constant" :: m.controls.getD [])[j] = c at hc
    obtain ⟨v₁, v₂, v₃, k1, k2, k3, hv⟩ := valueIs_combines hsc (c := c) (by
      rcases List.mem_cons.mp (List.mem_of_getElem? hc) with hc | hc
      · exact Or.inl hc
      · exact Or.inr (Or.inl (Or.inr (Or.inr (Or.inl hc)))))
    obtain ⟨w₁, e1, f1⟩ := (cell₁ p₁.i t r₁ p₁.lt ht g1).2.1 j c v₁ hc k1
    obtain ⟨w₂, e2, f2⟩ := (cell₂ p₂.i t r₂ p₂.lt ht g2).2.1 j c v₂ hc k2
    obtain ⟨w₃, e3, f3⟩ := (cell₃ p₃.i t r₃ p₃.lt ht g3).2.1 j c v₃ hc k3
    exact ⟨w₁, w₂, w₃, e1, e2, e3, kept_combines hsc hv f1 f2 f3⟩
  · obtain ⟨r₁, r₂, r₃, g1, g2, g3⟩ := hrows t
    have hsc := hs _ ht hT r₁ r₂ r₃ g1 g2 g3
    have hc : (m.observedFactors.getD [])[j]? = some (m.observedFactors.getD [])[j] := List.getElem?_eq_getElem hj
    generalize (m.observedFactors.getD [])[j] = c at hc
    obtain ⟨v₁, v₂, v₃, k1, k2, k3, hv⟩ := valueIs_combines hsc (c := c) (Or.inr (Or.inl (Or.inr (Or.inr (Or.inr (List.mem_of_getElem? hc))))))
    obtain ⟨w₁, e1, f1⟩ := (cell₁ p₁.i t r₁ p₁.lt ht g1).2.2 j c v₁ hc k1
    obtain ⟨w₂, e2, f2⟩ := (cell₂ p₂.i t r₂ p₂.lt ht g2).2.2 j c v₂ hc k2
    obtain ⟨w₃, e3, f3⟩ := (cell₃ p₃.i t r₃ p₃.lt ht g3).2.2 j c v₃ hc k3
    exact ⟨w₁, w₂, w₃, e1, e2, e3, kept_combines hsc hv f1 f2 f3⟩

end Skill
