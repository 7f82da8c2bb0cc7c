import Verif.Spec.Constraints
import Verif.Props.ParamsIndex
/-
Which parameters the constraint list fixes.
-/
namespace Skill
open Spec
variable {α : Type}

theorem Dict.getItem_of_mem {β : Type _} {d : Dict β} (hn : (d.map Prod.fst).Nodup) {k : String} {v : β}
    (h : (k, v) ∈ d) : Dict.getItem d k = .ok v := by
  unfold Dict.getItem Dict.get?
  induction d with
  | nil => cases h
  | cons a d ih =>
    obtain ⟨k', v'⟩ := a
    simp only [List.map_cons, List.nodup_cons] at hn
    rw [List.find?_cons]
    by_cases hk : k' = k
    · subst hk
      simp only [beq_self_eq_true]
      rcases List.mem_cons.mp h with h | h
      · cases h; rfl
      · exact absurd (List.mem_map.mpr ⟨_, h, rfl⟩) hn.1
    · have : (k' == k) = false := by simpa using hk
      simp only [this]
      refine ih hn.2 ?_
      rcases List.mem_cons.mp h with h | h
      · cases h; exact absurd rfl hk
      · exact h

theorem mapM_flatten_mem {β γ : Type _} {f : β → Py (List γ)} {P : β → γ → Prop} {xs : List β}
    (h : ∀ x ∈ xs, ∃ ys, f x = .ok ys ∧ ∀ z, z ∈ ys ↔ P x z) :
    ∃ yss, xs.mapM f = .ok yss ∧ ∀ z, z ∈ yss.flatten ↔ ∃ x ∈ xs, P x z := by
  induction xs with
  | nil => exact ⟨[], rfl, by simp⟩
  | cons x xs ih =>
    obtain ⟨ys, h1, h2⟩ := h x (by simp)
    obtain ⟨yss, h3, h4⟩ := ih (fun y hy => h y (by simp [hy]))
    refine ⟨ys :: yss, ?_, ?_⟩
    · rw [List.mapM_cons, h1, h3]; rfl
    · intro z
      simp [h2, h4]

/-- `FixedTo` for a list of constraints without ids. -/
def FixedL (index : List Loc) (cs : List (Constr α)) (l : Loc) (x : α) : Prop :=
  (∃ sel, .fixed sel (.scalar x) ∈ cs ∧ l ∈ selected index sel) ∨
  (∃ ls xs, .fixed (.many ls) (.vec xs) ∈ cs ∧ ∃ i : Nat, ls[i]? = some l ∧ xs[i]? = some x)

theorem fixedTo_zipIdx {index : List Loc} {cs : List (Constr α)} {l x} :
    FixedTo index (cs.zipIdx.map (fun (c, i) => (i, c))) l x ↔ FixedL index cs l x := by
  have key : ∀ c, (∃ id, (id, c) ∈ cs.zipIdx.map (fun (c, i) => (i, c))) ↔ c ∈ cs := by
    intro c
    rw [List.mem_iff_getElem?]
    simp only [List.mem_map, Prod.exists, List.mem_zipIdx_iff_getElem?, Prod.mk.injEq]
    constructor
    · rintro ⟨id, c', i, h, rfl, rfl⟩; exact ⟨_, h⟩
    · rintro ⟨i, h⟩; exact ⟨i, c, i, h, rfl, rfl⟩
  unfold FixedTo FixedL
  constructor
  · rintro (⟨id, sel, h, h'⟩ | ⟨id, ls, xs, h, h'⟩)
    · exact Or.inl ⟨sel, (key _).mp ⟨id, h⟩, h'⟩
    · exact Or.inr ⟨ls, xs, (key _).mp ⟨id, h⟩, h'⟩
  · rintro (⟨sel, h, h'⟩ | ⟨ls, xs, h, h'⟩)
    · obtain ⟨id, h⟩ := (key _).mpr h
      exact Or.inl ⟨id, sel, h, h'⟩
    · obtain ⟨id, h⟩ := (key _).mpr h
      exact Or.inr ⟨id, ls, xs, h, h'⟩

theorem fixedL_append {index : List Loc} {c1 c2 : List (Constr α)} {l x} :
    FixedL index (c1 ++ c2) l x ↔ FixedL index c1 l x ∨ FixedL index c2 l x := by
  unfold FixedL
  simp only [List.mem_append]
  constructor
  · rintro (⟨s, h | h, h'⟩ | ⟨s, xs, h | h, h'⟩)
    · exact Or.inl (Or.inl ⟨s, h, h'⟩)
    · exact Or.inr (Or.inl ⟨s, h, h'⟩)
    · exact Or.inl (Or.inr ⟨s, xs, h, h'⟩)
    · exact Or.inr (Or.inr ⟨s, xs, h, h'⟩)
  · rintro ((⟨s, h, h'⟩ | ⟨s, xs, h, h'⟩) | (⟨s, h, h'⟩ | ⟨s, xs, h, h'⟩))
    · exact Or.inl ⟨s, Or.inl h, h'⟩
    · exact Or.inr ⟨s, xs, Or.inl h, h'⟩
    · exact Or.inl ⟨s, Or.inr h, h'⟩
    · exact Or.inr ⟨s, xs, Or.inr h, h'⟩

theorem mem_selected_many {index ls : List Loc} {l : Loc} :
    l ∈ selected index (.many ls) ↔ l ∈ ls ∧ l ∈ index := by
  simp only [selected, List.mem_flatMap, List.mem_filter, decide_eq_true_eq]
  constructor
  · rintro ⟨k, hk, hl, rfl⟩; exact ⟨hk, hl⟩
  · rintro ⟨hk, hl⟩; exact ⟨l, hk, hl, rfl⟩

theorem fixedL_nil {index : List Loc} {l} {x : α} : ¬ FixedL index [] l x := by
  unfold FixedL; simp

theorem fixedL_many_scalar {index ls : List Loc} {l} {x y : α} :
    FixedL index [.fixed (.many ls) (.scalar y)] l x ↔ l ∈ ls ∧ l ∈ index ∧ x = y := by
  unfold FixedL
  constructor
  · rintro (⟨s, h, h'⟩ | ⟨s, xs, h, h'⟩)
    · simp only [List.mem_singleton, Constr.fixed.injEq, FixVal.scalar.injEq] at h
      obtain ⟨rfl, rfl⟩ := h
      rw [mem_selected_many] at h'
      exact ⟨h'.1, h'.2, rfl⟩
    · simp at h
  · rintro ⟨h1, h2, rfl⟩
    exact Or.inl ⟨_, List.mem_singleton.mpr rfl, mem_selected_many.mpr ⟨h1, h2⟩⟩

section
variable [OfScientific α] [Neg α] [Zero α] [One α] [OfNat α 2] [DecidableEq α]

omit [OfScientific α] [Neg α] [Zero α] [One α] [OfNat α 2] [DecidableEq α] in
theorem processNormalizations_spec {m : ModelDict α} {d : Dimensions} {norms : Dict (NormInfo α)}
    (h : processNormalizations m d = .ok norms) :
    norms.map Prod.fst = m.factors.map Prod.fst ∧
    ∀ f spec, (f, spec) ∈ m.factors → ∃ info, (f, info) ∈ norms ∧
      info.loadings = (spec.normalizations.getD {}).loadings.getD [] ++
        List.replicate (d.nPeriods - ((spec.normalizations.getD {}).loadings.getD []).length) [] ∧
      info.intercepts = (spec.normalizations.getD {}).intercepts.getD [] ++
        List.replicate (d.nPeriods - ((spec.normalizations.getD {}).intercepts.getD []).length) [] ∧
      info.loadings.length = d.nPeriods ∧ info.intercepts.length = d.nPeriods := by
  unfold processNormalizations at h
  rw [mapM_ok_iff] at h
  have h' : List.Forall₂ (fun (fs : String × FactorSpec α) (x : String × NormInfo α) =>
      x.1 = fs.1 ∧ x.2.loadings = (fs.2.normalizations.getD {}).loadings.getD [] ++
        List.replicate (d.nPeriods - ((fs.2.normalizations.getD {}).loadings.getD []).length) [] ∧
      x.2.intercepts = (fs.2.normalizations.getD {}).intercepts.getD [] ++
        List.replicate (d.nPeriods - ((fs.2.normalizations.getD {}).intercepts.getD []).length) [] ∧
      x.2.loadings.length = d.nPeriods ∧ x.2.intercepts.length = d.nPeriods) m.factors norms := by
    refine h.imp ?_
    rintro ⟨f, spec⟩ ⟨f', info⟩ hr
    obtain ⟨l1, h1, hr⟩ := py_bind_ok.mp hr
    obtain ⟨l2, h2, hr⟩ := py_bind_ok.mp hr
    have hr := py_pure_ok.mp hr
    simp only [Prod.mk.injEq] at hr
    obtain ⟨rfl, rfl⟩ := hr
    rw [fillList_ok] at h1 h2
    obtain ⟨h1, rfl⟩ := h1
    obtain ⟨h2, rfl⟩ := h2
    refine ⟨rfl, rfl, rfl, ?_, ?_⟩
    · simp only [List.length_append, List.length_replicate]; omega
    · simp only [List.length_append, List.length_replicate]; omega
  clear h
  constructor
  · generalize m.factors = fs at h'
    induction h' with
    | nil => rfl
    | cons hx _ ih => rw [List.map_cons, List.map_cons, ih, hx.1]
  · intro f spec hmem
    obtain ⟨⟨f', info⟩, hi, hf, h2⟩ := forall₂_mem h' hmem
    simp only at hf
    subst hf
    exact ⟨info, hi, h2⟩

omit [OfScientific α] [Neg α] [Zero α] [One α] [OfNat α 2] [DecidableEq α] in
/-- Entries of a list that was filled up with empty dicts. -/
theorem filled_getElem? {xs : List (Dict α)} {k t : Nat} {v : String} {x : α} :
    (∃ d, (xs ++ List.replicate k [])[t]? = some d ∧ (v, x) ∈ d) ↔ ∃ d, xs[t]? = some d ∧ (v, x) ∈ d := by
  rcases Nat.lt_or_ge t xs.length with h | h
  · rw [List.getElem?_append_left h]
  · rw [List.getElem?_append_right h, List.getElem?_eq_none h, List.getElem?_replicate]
    constructor
    · rintro ⟨d, hd, hv⟩
      split at hd
      · cases hd; cases hv
      · cases hd
    · rintro ⟨d, hd, _⟩; cases hd

theorem nPeriods_pos {m : ModelDict α} {pm : Processed α} (h : processModel m = .ok pm) :
    1 ≤ pm.dimensions.nPeriods := by
  have := (processModel_ok_iff.mp h).2.1
  exact ((checkModel_ok_iff (isNPeriods_of_ok h)).mp this).periods _ (isNPeriods_of_ok h)

theorem factors_ne_nil {m : ModelDict α} {pm : Processed α} (h : processModel m = .ok pm) :
    m.factors ≠ [] := by
  obtain ⟨⟨f, spec, hmem, _⟩, _⟩ := isNPeriods_of_ok h
  intro hc; rw [hc] at hmem; cases hmem

/-- The pairs (label, value) of the normalization constraint. -/
theorem normalizationConstraints_spec {m : ModelDict α} {pm : Processed α} (h : processModel m = .ok pm)
    (hk : DictKeys m) :
    ∃ cs, getNormalizationConstraints pm.normalizations pm.labels.latentFactors = .ok cs ∧
      (cs = [] ∨ ∃ ls xs, ls ≠ [] ∧ ls.length = xs.length ∧ cs = [.fixed (.many ls) (.vec xs)]) ∧
      ∀ index l x, FixedL index cs l x ↔
        (∃ f spec t v, (f, spec) ∈ m.factors ∧ LoadingNorm spec t v x ∧ l = ⟨.loadings, t, v, f⟩) ∨
        (∃ f spec t v, (f, spec) ∈ m.factors ∧ InterceptNorm spec t v x ∧
          l = ⟨.controls, t, v, "constant"⟩) := by
  obtain ⟨hlat, _⟩ := labels_of_ok h
  obtain ⟨hkeys, hspec⟩ := processNormalizations_spec (processModel_ok_iff.mp h).2.2.2.2.2.2.2
  have hnd : (pm.normalizations.map Prod.fst).Nodup := by rw [hkeys]; exact hk.factors
  set n := pm.dimensions.nPeriods with hn
  unfold getNormalizationConstraints
  -- first factor
  have hne := factors_ne_nil h
  obtain ⟨⟨f0, spec0⟩, rest, hfs⟩ := List.exists_cons_of_ne_nil hne
  obtain ⟨info0, hm0, _, _, hl0, _⟩ := hspec f0 spec0 (by rw [hfs]; simp)
  have e0 : pyIndex pm.labels.latentFactors 0 = .ok f0 := by
    rw [hlat, hfs]; rfl
  rw [e0]
  simp only [bind, Except.bind]
  rw [Dict.getItem_of_mem hnd hm0]
  simp only [hl0]
  have hmap := mapM_flatten_mem (xs := pm.labels.latentFactors)
    (f := fun factor => do
      let info ← Dict.getItem pm.normalizations factor
      let perPeriod ← (List.range n).mapM (fun period => do
        let load ← pyIndex info.loadings period
        let inter ← pyIndex info.intercepts period
        pure (load.map (fun (x : String × α) => ((⟨.loadings, period, x.1, factor⟩ : Loc), x.2))
          ++ inter.map (fun (x : String × α) => ((⟨.controls, period, x.1, "constant"⟩ : Loc), x.2))))
      pure perPeriod.flatten)
    (P := fun f z => (∃ spec t v, (f, spec) ∈ m.factors ∧ LoadingNorm spec t v z.2 ∧ z.1 = ⟨.loadings, t, v, f⟩) ∨
      (∃ spec t v, (f, spec) ∈ m.factors ∧ InterceptNorm spec t v z.2 ∧ z.1 = ⟨.controls, t, v, "constant"⟩))
    (by
      intro f hf
      rw [hlat, List.mem_map] at hf
      obtain ⟨⟨f, spec⟩, hmem, rfl⟩ := hf
      obtain ⟨info, hi, el, ei, hll, hil⟩ := hspec f spec hmem
      have huniq : ∀ spec', (f, spec') ∈ m.factors → spec' = spec := by
        intro spec' h'
        have h1 := Dict.getItem_of_mem hk.factors hmem
        have h2 := Dict.getItem_of_mem hk.factors h'
        rw [h1] at h2
        exact (Except.ok.inj h2).symm
      have hin := mapM_flatten_mem (xs := List.range n)
        (f := fun period => do
          let load ← pyIndex info.loadings period
          let inter ← pyIndex info.intercepts period
          pure (load.map (fun (x : String × α) => ((⟨.loadings, period, x.1, f⟩ : Loc), x.2))
            ++ inter.map (fun (x : String × α) => ((⟨.controls, period, x.1, "constant"⟩ : Loc), x.2))))
        (P := fun t z => (∃ v, LoadingNorm spec t v z.2 ∧ z.1 = ⟨.loadings, t, v, f⟩) ∨
          (∃ v, InterceptNorm spec t v z.2 ∧ z.1 = ⟨.controls, t, v, "constant"⟩))
        (by
          intro t ht
          rw [List.mem_range] at ht
          have h1 : pyIndex info.loadings t = .ok (info.loadings[t]'(by omega)) := by
            unfold pyIndex; rw [List.getElem?_eq_getElem (by omega)]
          have h2 : pyIndex info.intercepts t = .ok (info.intercepts[t]'(by omega)) := by
            unfold pyIndex; rw [List.getElem?_eq_getElem (by omega)]
          refine ⟨_, by rw [h1, h2]; rfl, ?_⟩
          rintro ⟨l, x⟩
          simp only [List.mem_append, List.mem_map, Prod.exists, Prod.mk.injEq]
          have c1 : ∀ v, (v, x) ∈ info.loadings[t]'(by omega) ↔ LoadingNorm spec t v x := by
            intro v
            rw [← loadings_getD, ← filled_getElem? (k := n - ((spec.normalizations.getD {}).loadings.getD []).length), ← el]
            rw [List.getElem?_eq_getElem (by omega)]
            simp
          have c2 : ∀ v, (v, x) ∈ info.intercepts[t]'(by omega) ↔ InterceptNorm spec t v x := by
            intro v
            rw [← intercepts_getD, ← filled_getElem? (k := n - ((spec.normalizations.getD {}).intercepts.getD []).length), ← ei]
            rw [List.getElem?_eq_getElem (by omega)]
            simp
          constructor
          · rintro (⟨v, y, hv, rfl, rfl⟩ | ⟨v, y, hv, rfl, rfl⟩)
            · exact Or.inl ⟨v, (c1 v).mp hv, rfl⟩
            · exact Or.inr ⟨v, (c2 v).mp hv, rfl⟩
          · rintro (⟨v, hv, rfl⟩ | ⟨v, hv, rfl⟩)
            · exact Or.inl ⟨v, x, (c1 v).mpr hv, rfl, rfl⟩
            · exact Or.inr ⟨v, x, (c2 v).mpr hv, rfl, rfl⟩)
      obtain ⟨yss, hy1, hy2⟩ := hin
      refine ⟨yss.flatten, ?_, ?_⟩
      · simp only [bind, Except.bind] at hy1 ⊢
        rw [Dict.getItem_of_mem hnd hi]
        simp only [hy1]
        rfl
      · rintro ⟨l, x⟩
        rw [hy2]
        have hlt : ∀ t v, LoadingNorm spec t v x → t < n := by
          intro t v hh
          rw [← loadings_getD, ← filled_getElem? (k := n - ((spec.normalizations.getD {}).loadings.getD []).length), ← el] at hh
          obtain ⟨d, hd, _⟩ := hh
          by_contra hc
          rw [List.getElem?_eq_none (by omega)] at hd
          cases hd
        have hlt' : ∀ t v, InterceptNorm spec t v x → t < n := by
          intro t v hh
          rw [← intercepts_getD, ← filled_getElem? (k := n - ((spec.normalizations.getD {}).intercepts.getD []).length), ← ei] at hh
          obtain ⟨d, hd, _⟩ := hh
          by_contra hc
          rw [List.getElem?_eq_none (by omega)] at hd
          cases hd
        constructor
        · rintro ⟨t, _, ⟨v, hv, rfl⟩ | ⟨v, hv, rfl⟩⟩
          · exact Or.inl ⟨spec, t, v, hmem, hv, rfl⟩
          · exact Or.inr ⟨spec, t, v, hmem, hv, rfl⟩
        · rintro (⟨spec', t, v, hm', hv, e⟩ | ⟨spec', t, v, hm', hv, e⟩)
          · rw [huniq _ hm'] at hv
            exact ⟨t, List.mem_range.mpr (hlt t v hv), Or.inl ⟨v, hv, e⟩⟩
          · rw [huniq _ hm'] at hv
            exact ⟨t, List.mem_range.mpr (hlt' t v hv), Or.inr ⟨v, hv, e⟩⟩)
  obtain ⟨yss, hy1, hy2⟩ := hmap
  simp only [bind, Except.bind] at hy1
  simp only [hy1]
  refine ⟨_, rfl, ?_, ?_⟩
  · by_cases hc : yss.flatten = []
    · left; rw [if_neg (not_not.mpr hc)]
    · right
      refine ⟨yss.flatten.map Prod.fst, yss.flatten.map Prod.snd, by rw [ne_eq, List.map_eq_nil_iff]; exact hc, by rw [List.length_map, List.length_map], ?_⟩
      rw [if_pos hc]
  · intro index l x
    have : FixedL index (if yss.flatten ≠ [] then [Constr.fixed (.many (yss.flatten.map Prod.fst))
        (.vec (yss.flatten.map Prod.snd))] else []) l x ↔ (l, x) ∈ yss.flatten := by
      split
      · unfold FixedL
        constructor
        · rintro (⟨s, h, h'⟩ | ⟨ls, xs, h, i, h1, h2⟩)
          · simp at h
          · simp only [List.mem_singleton, Constr.fixed.injEq, LocSel.many.injEq, FixVal.vec.injEq] at h
            obtain ⟨rfl, rfl⟩ := h
            rw [List.getElem?_map] at h1 h2
            cases hz : yss.flatten[i]? with
            | none => rw [hz] at h1; cases h1
            | some z =>
              rw [hz] at h1 h2
              simp only [Option.map_some, Option.some.injEq] at h1 h2
              rw [← h1, ← h2]
              exact List.mem_of_getElem? hz
        · intro hm
          obtain ⟨i, hi⟩ := List.mem_iff_getElem?.mp hm
          refine Or.inr ⟨_, _, List.mem_singleton.mpr rfl, i, ?_, ?_⟩
          · rw [List.getElem?_map, hi]; rfl
          · rw [List.getElem?_map, hi]; rfl
      · rename_i hc
        have hc : yss.flatten = [] := not_not.mp hc
        rw [hc]
        simp [FixedL]
    refine this.trans ?_
    rw [hy2]
    constructor
    · rintro ⟨f, _, ⟨spec, t, v, h1, h2, h3⟩ | ⟨spec, t, v, h1, h2, h3⟩⟩
      · exact Or.inl ⟨f, spec, t, v, h1, h2, h3⟩
      · exact Or.inr ⟨f, spec, t, v, h1, h2, h3⟩
    · have hfm : ∀ f spec, (f, spec) ∈ m.factors → f ∈ pm.labels.latentFactors := by
        intro f spec hm; rw [hlat]; exact List.mem_map.mpr ⟨_, hm, rfl⟩
      rintro (⟨f, spec, t, v, h1, h2, h3⟩ | ⟨f, spec, t, v, h1, h2, h3⟩)
      · exact ⟨f, hfm f spec h1, Or.inl ⟨spec, t, v, h1, h2, h3⟩⟩
      · exact ⟨f, hfm f spec h1, Or.inr ⟨spec, t, v, h1, h2, h3⟩⟩

end
end Skill
