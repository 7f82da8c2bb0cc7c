import Verif.Lemmas.Constraints
/-
The remaining parts of the constraint list.
-/
namespace Skill
open Spec
variable {α : Type}

theorem zip_fst_snd {β γ : Type _} (l : List (β × γ)) : (l.map Prod.fst).zip (l.map Prod.snd) = l := by
  induction l with
  | nil => rfl
  | cons a l ih => simp [ih]

theorem transitionName_iff {fs : List String} {spec : TransSpec} {ns : List String} {n : String}
    (h : transitionNamesOf fs spec = .ok (ns, n)) (n' : String) : TransitionName spec n' ↔ n' = n := by
  cases spec with
  | named s =>
    simp only [transitionNamesOf] at h
    split at h
    · rw [Except.ok.injEq, Prod.mk.injEq] at h
      simp [TransitionName, h.2]
    · cases h
  | custom fn ps =>
    cases fn with
    | none => cases h
    | some fn =>
      cases ps with
      | none => cases h
      | some ps =>
        simp only [transitionNamesOf] at h
        rw [Except.ok.injEq, Prod.mk.injEq] at h
        simp [TransitionName, h.2, eq_comm]

/-- Constraint lists that fix nothing. -/
theorem fixedL_of_none {index : List Loc} {cs : List (Constr α)} (h : ∀ c ∈ cs, ∀ s v, c ≠ .fixed s v) {l x} :
    ¬ FixedL index cs l x := by
  rintro (⟨s, h1, _⟩ | ⟨ls, xs, h1, _⟩)
  · exact h _ h1 _ _ rfl
  · exact h _ h1 _ _ rfl

/-- Constraint lists that fix single labels. -/
theorem fixedL_ones {index : List Loc} {cs : List (Constr α)} (h : ∀ c ∈ cs, ∃ l x, c = .fixed (.one l) (.scalar x))
    {l x} : FixedL index cs l x ↔ .fixed (.one l) (.scalar x) ∈ cs ∧ l ∈ index := by
  constructor
  · rintro (⟨s, h1, h2⟩ | ⟨ls, xs, h1, _⟩)
    · obtain ⟨l', x', e⟩ := h _ h1
      cases e
      simp only [selected, List.mem_filter, decide_eq_true_eq] at h2
      rw [h2.2]
      rw [h2.2] at h2
      exact ⟨h1, h2.1⟩
    · obtain ⟨l', x', e⟩ := h _ h1
      cases e
  · rintro ⟨h1, h2⟩
    exact Or.inl ⟨_, h1, by simp [selected, h2]⟩

theorem fixedL_filter {index : List Loc} {cs : List (Constr α)} {l x} :
    FixedL index (cs.filter Constr.locNonempty) l x ↔ FixedL index cs l x := by
  unfold FixedL
  constructor
  · rintro (⟨s, h1, h2⟩ | ⟨ls, xs, h1, h2⟩)
    · exact Or.inl ⟨s, (List.mem_filter.mp h1).1, h2⟩
    · exact Or.inr ⟨ls, xs, (List.mem_filter.mp h1).1, h2⟩
  · rintro (⟨s, h1, h2⟩ | ⟨ls, xs, h1, i, h2, h3⟩)
    · refine Or.inl ⟨s, List.mem_filter.mpr ⟨h1, ?_⟩, h2⟩
      cases s with
      | many ls =>
        cases ls with
        | nil => simp [selected] at h2
        | cons a as => rfl
      | _ => rfl
    · refine Or.inr ⟨ls, xs, List.mem_filter.mpr ⟨h1, ?_⟩, i, h2, h3⟩
      cases ls with
      | nil => simp at h2
      | cons a as => rfl

theorem fixedL_mixture [One α] {index : List Loc} {n : Nat} {l} {x : α} :
    FixedL index (getMixtureWeightsConstraints n) l x ↔
      n = 1 ∧ l ∈ index ∧ l.cat = .mixtureWeights ∧ x = 1 := by
  unfold getMixtureWeightsConstraints
  split
  · rename_i hn
    constructor
    · rintro (⟨s, h, h'⟩ | ⟨s, xs, h, h'⟩)
      · simp only [List.mem_singleton, Constr.fixed.injEq, FixVal.scalar.injEq] at h
        obtain ⟨rfl, rfl⟩ := h
        simp only [selected, List.mem_filter, decide_eq_true_eq] at h'
        exact ⟨hn, h'.1, h'.2, rfl⟩
      · simp at h
    · rintro ⟨_, h1, h2, rfl⟩
      exact Or.inl ⟨_, List.mem_singleton.mpr rfl, by simp [selected, h1, h2]⟩
  · rename_i hn
    constructor
    · intro h
      refine absurd h (fixedL_of_none ?_)
      intro c hc s v
      simp only [List.mem_singleton] at hc
      rw [hc]; simp
    · rintro ⟨h, _⟩; exact absurd h hn

theorem fixedL_stage {index : List Loc} {sm st : List Int} {l} {x : α} :
    ¬ FixedL index (getStageConstraints sm st) l x := by
  apply fixedL_of_none
  intro c hc s v
  unfold getStageConstraints at hc
  rw [List.mem_flatMap] at hc
  obtain ⟨stage, _, hc⟩ := hc
  dsimp only at hc
  split at hc
  · simp only [List.mem_cons, List.not_mem_nil, or_false] at hc
    rcases hc with rfl | rfl <;> simp
  · cases hc

theorem initialStates_ok {n : Nat} {fs : List String} (h : fs ≠ []) :
    ∃ cs : List (Constr α), getInitialStatesConstraints n fs = .ok cs ∧
      cs = if n > 1 then [.increasing (.many ((List.range n).map
        (fun k => ⟨.initialStates, 0, mixtureName k, fs.head h⟩)))] else [] := by
  unfold getInitialStatesConstraints
  cases fs with
  | nil => exact absurd rfl h
  | cons f fs =>
    split
    · exact ⟨_, rfl, rfl⟩
    · exact ⟨_, rfl, rfl⟩

theorem fixedL_transition {index : List Loc} {latent names allf : List String} {ps : List Nat} {l} {x : α} :
    ¬ FixedL index (getTransitionConstraints latent names allf ps) l x := by
  apply fixedL_of_none
  intro c hc s v
  unfold getTransitionConstraints at hc
  simp only [List.mem_flatMap, Prod.exists] at hc
  obtain ⟨f, tn, _, p, _, hc⟩ := hc
  split at hc
  · simp only [List.mem_singleton] at hc
    rw [hc]; simp [constraintsLogCes]
  · cases hc

theorem fixedL_constant [Zero α] {index : List Loc} {latent names : List String} {ps : List Nat} {l} {x : α} :
    FixedL index (getConstantFactorsConstraints latent names ps) l x ↔
      ∃ f t, (f, "constant") ∈ latent.zip names ∧ t ∈ ps.dropLast ∧ l = ⟨.shockSds, t, f, "-"⟩ ∧ l ∈ index ∧ x = 0 := by
  rw [fixedL_ones]
  · unfold getConstantFactorsConstraints
    simp only [List.mem_flatMap, Prod.exists]
    constructor
    · rintro ⟨⟨f, tn, hf, hc⟩, hl⟩
      split at hc
      · rename_i htn
        subst htn
        simp only [List.mem_map, Constr.fixed.injEq, LocSel.one.injEq, FixVal.scalar.injEq] at hc
        obtain ⟨p, hp, rfl, rfl⟩ := hc
        exact ⟨f, p, hf, hp, rfl, hl, rfl⟩
      · cases hc
    · rintro ⟨f, t, hf, ht, rfl, hl, rfl⟩
      refine ⟨⟨f, "constant", hf, ?_⟩, hl⟩
      simp only [if_true, List.mem_map]
      exact ⟨t, ht, rfl⟩
  · intro c hc
    unfold getConstantFactorsConstraints at hc
    simp only [List.mem_flatMap, Prod.exists] at hc
    obtain ⟨f, tn, _, hc⟩ := hc
    split at hc
    · simp only [List.mem_map] at hc
      obtain ⟨p, _, rfl⟩ := hc
      exact ⟨_, _, rfl⟩
    · cases hc

section
variable [OfScientific α] [Neg α] [Zero α] [One α] [OfNat α 2] [DecidableEq α]

omit [OfScientific α] [Neg α] [Zero α] [One α] [OfNat α 2] [DecidableEq α] in
/-- The tuples of the free_loadings block. -/
theorem anchorLoadings_ok {m : ModelDict α} (hk : DictKeys m) (ps : List Nat) :
    ∃ tups, ps.mapM (fun period => (processAnchoring m).factors.mapM (fun factor => do
        let outcome ← Dict.getItem (processAnchoring m).outcomes factor
        pure (⟨.loadings, period, anchoringName outcome factor, factor⟩ : Loc))) = .ok tups ∧
      ∀ l, l ∈ tups.flatten ↔ ∃ t f v, t ∈ ps ∧ Anchors m v f ∧ l = ⟨.loadings, t, v, f⟩ := by
  have hnd : ((processAnchoring m).outcomes.map Prod.fst).Nodup := by
    unfold processAnchoring
    cases ha : m.anchoring with
    | none => simp
    | some a =>
      cases ho : a.outcomes with
      | none => simp [ho]
      | some os => simpa [ho] using hk.outcomes a os ha ho
  have hfac : (processAnchoring m).factors = (processAnchoring m).outcomes.map Prod.fst := by
    unfold processAnchoring
    cases m.anchoring <;> rfl
  obtain ⟨tups, h1, h2⟩ := mapM_flatten_mem (xs := ps)
    (f := fun period => (processAnchoring m).factors.mapM (fun factor => do
        let outcome ← Dict.getItem (processAnchoring m).outcomes factor
        pure (⟨.loadings, period, anchoringName outcome factor, factor⟩ : Loc)))
    (P := fun t l => ∃ f v, Anchors m v f ∧ l = ⟨.loadings, t, v, f⟩)
    (by
      intro t _
      refine ⟨(processAnchoring m).outcomes.map (fun fo => ⟨.loadings, t, anchoringName fo.2 fo.1, fo.1⟩), ?_, ?_⟩
      · rw [hfac, mapM_ok_iff]
        rw [List.forall₂_map_left_iff, List.forall₂_map_right_iff]
        rw [List.forall₂_same]
        rintro ⟨f, o⟩ hm
        show (Dict.getItem (processAnchoring m).outcomes f >>= _) = _
        rw [Dict.getItem_of_mem hnd hm]
        rfl
      · intro l
        simp only [List.mem_map, Prod.exists, mem_outcomes_iff]
        constructor
        · rintro ⟨f, o, hf, rfl⟩
          exact ⟨f, _, ⟨o, hf, rfl⟩, rfl⟩
        · rintro ⟨f, v, ⟨o, hf, rfl⟩, rfl⟩
          exact ⟨f, o, hf, rfl⟩)
  refine ⟨tups, h1, ?_⟩
  intro l
  rw [h2]
  constructor
  · rintro ⟨t, ht, f, v, h3, h4⟩; exact ⟨t, f, v, ht, h3, h4⟩
  · rintro ⟨t, f, v, ht, h3, h4⟩; exact ⟨t, ht, f, v, h3, h4⟩

omit [OfScientific α] [Neg α] [Zero α] [One α] [OfNat α 2] [DecidableEq α] in
theorem flag_iff {m : ModelDict α} :
    ((processAnchoring m).freeConstant = true ↔ AnchorFlag m AnchoringSpec.freeConstant) ∧
    ((processAnchoring m).freeControls = true ↔ AnchorFlag m AnchoringSpec.freeControls) ∧
    ((processAnchoring m).freeLoadings = true ↔ AnchorFlag m AnchoringSpec.freeLoadings) := by
  unfold processAnchoring AnchorFlag
  cases m.anchoring with
  | none => simp
  | some a =>
    have g : ∀ o : Option Bool, (o.getD false = true ↔ o = some true) := by
      intro o; cases o <;> simp
    simp [g]

/-- Shape and content of the anchoring constraints. -/
theorem anchoringConstraints_spec {m : ModelDict α} {pm : Processed α} (h : processModel m = .ok pm)
    (hk : DictKeys m) :
    ∃ cs : List (Constr α), getAnchoringConstraints pm.updateInfo pm.labels.controls pm.anchoring pm.labels.periods = .ok cs ∧
      (∀ c ∈ cs, ∃ ls x, ls ≠ [] ∧ c = .fixed (.many ls) (.scalar x) ∧ ∀ l ∈ ls,
        (∃ t v c, IsUpdate m t v ∧ (c = "constant" ∨ c ∈ m.controls.getD []) ∧ l = ⟨.controls, t, v, c⟩) ∨
        (∃ t v f, IsPeriod m t ∧ Anchors m v f ∧ l = ⟨.loadings, t, v, f⟩)) ∧
      ∀ l x, FixedL pm.paramsIndex cs l x ↔
        (∃ t v, ¬ AnchorFlag m AnchoringSpec.freeConstant ∧ (∃ f, Anchors m v f) ∧ IsPeriod m t ∧
          l = ⟨.controls, t, v, "constant"⟩ ∧ x = 0) ∨
        (∃ t v c, ¬ AnchorFlag m AnchoringSpec.freeControls ∧ (∃ f, Anchors m v f) ∧ IsPeriod m t ∧
          c ∈ m.controls.getD [] ∧ c ≠ "constant" ∧ l = ⟨.controls, t, v, c⟩ ∧ x = 0) ∨
        (∃ t v f, ¬ AnchorFlag m AnchoringSpec.freeLoadings ∧ Anchors m v f ∧ IsLatent m f ∧ IsPeriod m t ∧
          l = ⟨.loadings, t, v, f⟩ ∧ x = 1) := by
  obtain ⟨hlat, hobs, hcon, hper, hall, hti, _⟩ := labels_of_ok h
  have hanch := (processModel_ok_iff.mp h).2.2.2.2.1
  obtain ⟨_, hkey, _, _, hpurp⟩ := C01_update_info_exact h
  have hupd : ∀ t v, (∃ r ∈ pm.updateInfo, r.purpose = .anchoring ∧ r.period = t ∧ r.var = v) ↔
      IsPeriod m t ∧ ∃ f, Anchors m v f := by
    intro t v
    constructor
    · rintro ⟨r, hr, hp, rfl, rfl⟩
      have hA := (hpurp r hr).mp hp
      refine ⟨?_, hA⟩
      rcases (hkey r.period r.var).mp ⟨r, hr, rfl, rfl⟩ with ⟨f, hM⟩ | ⟨hp, _⟩
      · rw [isPeriod_iff h]; exact measures_lt (isNPeriods_of_ok h) hM
      · exact hp
    · rintro ⟨ht, hA⟩
      obtain ⟨r, hr, rfl, rfl⟩ := (hkey t v).mpr (Or.inr ⟨ht, hA⟩)
      exact ⟨r, hr, (hpurp r hr).mpr hA, rfl, rfl⟩
  obtain ⟨hf1, hf2, hf3⟩ := flag_iff (m := m)
  obtain ⟨tups, ht1, ht2⟩ := anchorLoadings_ok hk pm.labels.periods
  rw [hanch]
  -- the three blocks
  let c1 : List (Constr α) :=
    if !(processAnchoring m).freeConstant then
      [.fixed (.many ((pm.updateInfo.filter (fun r => decide (r.purpose = .anchoring))).map
        (fun r => ⟨.controls, r.period, r.var, "constant"⟩))) (.scalar 0)]
    else []
  let c2 : List (Constr α) :=
    if !(processAnchoring m).freeControls then
      [.fixed (.many ((pm.updateInfo.filter (fun r => decide (r.purpose = .anchoring))).flatMap (fun r =>
        (pm.labels.controls.filter (fun c => decide (c ≠ "constant"))).map
          (fun cont => ⟨.controls, r.period, r.var, cont⟩)))) (.scalar 0)]
    else []
  let c3 : List (Constr α) :=
    if !(processAnchoring m).freeLoadings then [.fixed (.many tups.flatten) (.scalar 1)] else []
  have hok : getAnchoringConstraints pm.updateInfo pm.labels.controls (processAnchoring m) pm.labels.periods =
      .ok ((c1 ++ c2 ++ c3).filter Constr.locNonempty) := by
    unfold getAnchoringConstraints
    dsimp only
    cases hb : (processAnchoring m).freeLoadings with
    | false =>
      simp only [c3, hb, Bool.not_false, if_true]
      rw [ht1]; rfl
    | true =>
      simp only [c3, hb, Bool.not_true, Bool.false_eq_true, if_false]
      rfl
  have m1 : ∀ l, l ∈ (pm.updateInfo.filter (fun r => decide (r.purpose = .anchoring))).map
        (fun r => (⟨.controls, r.period, r.var, "constant"⟩ : Loc)) ↔
        ∃ t v, IsPeriod m t ∧ (∃ f, Anchors m v f) ∧ l = ⟨.controls, t, v, "constant"⟩ := by
    intro l
    simp only [List.mem_map, List.mem_filter, decide_eq_true_eq]
    constructor
    · rintro ⟨r, ⟨hr, hp⟩, rfl⟩
      have := (hupd r.period r.var).mp ⟨r, hr, hp, rfl, rfl⟩
      exact ⟨_, _, this.1, this.2, rfl⟩
    · rintro ⟨t, v, h1, h2, rfl⟩
      obtain ⟨r, hr, hp, rfl, rfl⟩ := (hupd t v).mpr ⟨h1, h2⟩
      exact ⟨r, ⟨hr, hp⟩, rfl⟩
  have m2 : ∀ l, l ∈ (pm.updateInfo.filter (fun r => decide (r.purpose = .anchoring))).flatMap (fun r =>
        (pm.labels.controls.filter (fun c => decide (c ≠ "constant"))).map
          (fun cont => (⟨.controls, r.period, r.var, cont⟩ : Loc))) ↔
        ∃ t v c, IsPeriod m t ∧ (∃ f, Anchors m v f) ∧ c ∈ m.controls.getD [] ∧ c ≠ "constant" ∧
          l = ⟨.controls, t, v, c⟩ := by
    intro l
    simp only [List.mem_map, List.mem_filter, List.mem_flatMap, decide_eq_true_eq]
    constructor
    · rintro ⟨r, ⟨hr, hp⟩, c, ⟨hc, hc'⟩, rfl⟩
      have := (hupd r.period r.var).mp ⟨r, hr, hp, rfl, rfl⟩
      rw [hcon, List.mem_cons] at hc
      exact ⟨_, _, c, this.1, this.2, hc.resolve_left hc', hc', rfl⟩
    · rintro ⟨t, v, c, h1, h2, h3, h4, rfl⟩
      obtain ⟨r, hr, hp, rfl, rfl⟩ := (hupd t v).mpr ⟨h1, h2⟩
      exact ⟨r, ⟨hr, hp⟩, c, ⟨by rw [hcon]; simp [h3], h4⟩, rfl⟩
  have hpm : ∀ t, t ∈ pm.labels.periods ↔ IsPeriod m t := by
    intro t; rw [hper, List.mem_range, isPeriod_iff h]
  refine ⟨_, hok, ?_, ?_⟩
  · intro c hc
    rw [List.mem_filter] at hc
    obtain ⟨hc, hne⟩ := hc
    have hne' : ∀ ls x, c = .fixed (.many ls) (.scalar x) → ls ≠ [] := by
      rintro ls x rfl rfl
      cases hne
    simp only [List.mem_append] at hc
    rcases hc with (hc | hc) | hc
    · simp only [c1] at hc
      split at hc
      · simp only [List.mem_singleton] at hc
        refine ⟨_, _, hne' _ _ hc, hc, ?_⟩
        intro l hl
        obtain ⟨t, v, h1, h2, rfl⟩ := (m1 l).mp hl
        exact Or.inl ⟨t, v, _, Or.inr ⟨h1, h2⟩, Or.inl rfl, rfl⟩
      · cases hc
    · simp only [c2] at hc
      split at hc
      · simp only [List.mem_singleton] at hc
        refine ⟨_, _, hne' _ _ hc, hc, ?_⟩
        intro l hl
        obtain ⟨t, v, c, h1, h2, h3, h4, rfl⟩ := (m2 l).mp hl
        exact Or.inl ⟨t, v, _, Or.inr ⟨h1, h2⟩, Or.inr h3, rfl⟩
      · cases hc
    · simp only [c3] at hc
      split at hc
      · simp only [List.mem_singleton] at hc
        refine ⟨_, _, hne' _ _ hc, hc, ?_⟩
        intro l hl
        obtain ⟨t, f, v, h1, h2, rfl⟩ := (ht2 l).mp hl
        exact Or.inr ⟨t, v, f, (hpm t).mp h1, h2, rfl⟩
      · cases hc
  · intro l x
    rw [fixedL_filter, fixedL_append, fixedL_append, or_assoc]
    have e1 : FixedL pm.paramsIndex c1 l x ↔ (∃ t v, ¬ AnchorFlag m AnchoringSpec.freeConstant ∧
        (∃ f, Anchors m v f) ∧ IsPeriod m t ∧ l = ⟨.controls, t, v, "constant"⟩ ∧ x = 0) := by
      rw [← hf1]
      simp only [c1]
      cases hb : (processAnchoring m).freeConstant with
      | true => simp [fixedL_nil]
      | false =>
        simp only [Bool.not_false, if_true]
        rw [fixedL_many_scalar, m1]
        constructor
        · rintro ⟨⟨t, v, h1, h2, rfl⟩, _, rfl⟩
          exact ⟨t, v, by simp, h2, h1, rfl, rfl⟩
        · rintro ⟨t, v, _, h2, h1, rfl, rfl⟩
          exact ⟨⟨t, v, h1, h2, rfl⟩, (mem_paramsIndex_iff h _).mpr
            (.control (Or.inr ⟨h1, h2⟩) (Or.inl rfl)), rfl⟩
    have e2 : FixedL pm.paramsIndex c2 l x ↔ (∃ t v c, ¬ AnchorFlag m AnchoringSpec.freeControls ∧
        (∃ f, Anchors m v f) ∧ IsPeriod m t ∧ c ∈ m.controls.getD [] ∧ c ≠ "constant" ∧
        l = ⟨.controls, t, v, c⟩ ∧ x = 0) := by
      rw [← hf2]
      simp only [c2]
      cases hb : (processAnchoring m).freeControls with
      | true => simp [fixedL_nil]
      | false =>
        simp only [Bool.not_false, if_true]
        rw [fixedL_many_scalar, m2]
        constructor
        · rintro ⟨⟨t, v, c, h1, h2, h3, h4, rfl⟩, _, rfl⟩
          exact ⟨t, v, c, by simp, h2, h1, h3, h4, rfl, rfl⟩
        · rintro ⟨t, v, c, _, h2, h1, h3, h4, rfl, rfl⟩
          exact ⟨⟨t, v, c, h1, h2, h3, h4, rfl⟩, (mem_paramsIndex_iff h _).mpr
            (.control (Or.inr ⟨h1, h2⟩) (Or.inr h3)), rfl⟩
    have e3 : FixedL pm.paramsIndex c3 l x ↔ (∃ t v f, ¬ AnchorFlag m AnchoringSpec.freeLoadings ∧
        Anchors m v f ∧ IsLatent m f ∧ IsPeriod m t ∧ l = ⟨.loadings, t, v, f⟩ ∧ x = 1) := by
      rw [← hf3]
      simp only [c3]
      cases hb : (processAnchoring m).freeLoadings with
      | true => simp [fixedL_nil]
      | false =>
        simp only [Bool.not_false, if_true]
        rw [fixedL_many_scalar, ht2]
        constructor
        · rintro ⟨⟨t, f, v, h1, h2, rfl⟩, h3, rfl⟩
          rw [mem_paramsIndex_iff h] at h3
          cases h3 with
          | loading hl _ => exact ⟨t, v, f, by simp, h2, hl, (hpm t).mp h1, rfl, rfl⟩
        · rintro ⟨t, v, f, _, h2, h3, h1, rfl, rfl⟩
          exact ⟨⟨t, f, v, (hpm t).mpr h1, h2, rfl⟩, (mem_paramsIndex_iff h _).mpr
            (.loading h3 (Or.inr ⟨h1, h2⟩)), rfl⟩
    rw [e1, e2, e3]

theorem mem_zip_transitionNames {m : ModelDict α} {pm : Processed α} (h : processModel m = .ok pm) (f tn) :
    (f, tn) ∈ pm.labels.latentFactors.zip pm.labels.transitionNames ↔
      ∃ spec, (f, spec) ∈ m.factors ∧ TransitionName spec.transition tn := by
  obtain ⟨hlat, hobs, hcon, hper, hall, hti, htn⟩ := labels_of_ok h
  obtain ⟨_, ht1, _, ht2⟩ := getTransitionInfo_spec hti
  rw [hlat, htn, ← ht1, zip_fst_snd]
  constructor
  · intro hm
    obtain ⟨⟨f', spec⟩, h1, h2, ns, h3⟩ := forall₂_mem_right ht2 hm
    simp only at h2
    subst h2
    exact ⟨spec, h1, (transitionName_iff h3 _).mpr rfl⟩
  · rintro ⟨spec, h1, h2⟩
    obtain ⟨⟨f', n⟩, h3, h4, ns, h5⟩ := forall₂_mem ht2 h1
    simp only at h4
    subst h4
    rw [(transitionName_iff h5 _).mp h2]
    exact h3

/-- The constraint list of an accepted model. -/
theorem constraints_ok {m : ModelDict α} {pm : Processed α} (h : processModel m = .ok pm) (hk : DictKeys m) :
    ∃ c1 c5 c7 : List (Constr α), getNormalizationConstraints pm.normalizations pm.labels.latentFactors = .ok c1 ∧
      getInitialStatesConstraints pm.dimensions.nMixtures pm.labels.latentFactors = .ok c5 ∧
      getAnchoringConstraints pm.updateInfo pm.labels.controls pm.anchoring pm.labels.periods = .ok c7 ∧
      pm.constraints = .ok ((c1 ++ getMixtureWeightsConstraints pm.dimensions.nMixtures
        ++ getStageConstraints pm.labels.stagemap pm.labels.stages
        ++ getConstantFactorsConstraints pm.labels.latentFactors pm.labels.transitionNames pm.labels.periods
        ++ c5
        ++ getTransitionConstraints pm.labels.latentFactors pm.labels.transitionNames pm.labels.allFactors pm.labels.periods
        ++ c7).zipIdx.map (fun (c, i) => (i, c))) := by
  obtain ⟨c1, h1, _⟩ := normalizationConstraints_spec h hk
  have hlat : pm.labels.latentFactors ≠ [] := by
    rw [(labels_of_ok h).1]
    have := factors_ne_nil h
    simpa using this
  obtain ⟨c5, h5, _⟩ := initialStates_ok (α := α) (n := pm.dimensions.nMixtures) hlat
  obtain ⟨c7, h7, _⟩ := anchoringConstraints_spec h hk
  refine ⟨c1, c5, c7, h1, h5, h7, ?_⟩
  unfold Processed.constraints getConstraints
  rw [h1, h5, h7]
  rfl

end
end Skill
