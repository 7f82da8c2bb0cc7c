import Verif.Lemmas.Constraints2
import Verif.Props.CheckModel
/-
C11–C18, C63: constraints and bounds.
-/
namespace Skill
open Spec
variable {α : Type}

section
variable [OfScientific α] [Neg α] [Zero α] [One α] [OfNat α 2] [DecidableEq α]

/-- Every fix in the list is one that the model implies, and vice versa (C12, C17 and the constant
factors and mixture weight rules in one statement). -/
theorem constraints_fix_iff {m : ModelDict α} {pm : Processed α} (h : processModel m = .ok pm)
    (hk : DictKeys m) :
    ∃ cs, pm.constraints = .ok cs ∧ ∀ l x, FixedTo pm.paramsIndex cs l x ↔ ShouldFix m l x := by
  obtain ⟨c1, c5, c7, h1, h5, h7, hc⟩ := constraints_ok h hk
  obtain ⟨c1', h1', _, hs1⟩ := normalizationConstraints_spec h hk
  obtain ⟨c7', h7', _, hs7⟩ := anchoringConstraints_spec h hk
  rw [h1] at h1'
  rw [h7] at h7'
  cases h1'
  cases h7'
  have hlat : pm.labels.latentFactors ≠ [] := by
    rw [(labels_of_ok h).1]
    simpa using factors_ne_nil h
  obtain ⟨c5', h5', hs5⟩ := initialStates_ok (α := α) (n := pm.dimensions.nMixtures) hlat
  rw [h5] at h5'
  cases h5'
  obtain ⟨_, _, _, hper, _⟩ := labels_of_ok h
  refine ⟨_, hc, ?_⟩
  intro l x
  rw [fixedTo_zipIdx]
  simp only [fixedL_append]
  have n5 : ¬ FixedL pm.paramsIndex c5 l x := by
    apply fixedL_of_none
    intro c hc s v
    rw [hs5] at hc
    split at hc
    · simp only [List.mem_singleton] at hc; rw [hc]; simp
    · cases hc
  constructor
  · rintro ((((((hx | hx) | hx) | hx) | hx) | hx) | hx)
    · rw [hs1] at hx
      rcases hx with ⟨f, spec, t, v, h1, h2, rfl⟩ | ⟨f, spec, t, v, h1, h2, rfl⟩
      · exact .loading h1 h2
      · exact .intercept h1 h2
    · rw [fixedL_mixture] at hx
      obtain ⟨hn, hl, hcat, rfl⟩ := hx
      rw [mem_paramsIndex_iff h] at hl
      cases hl <;> try cases hcat
      rename_i n k hnk hk'
      rw [hasNMixtures_of_ok h] at hnk
      have : k = 0 := by omega
      subst this
      exact .weight ((hasNMixtures_of_ok h 1).mpr hn.symm)
    · exact absurd hx fixedL_stage
    · rw [fixedL_constant] at hx
      obtain ⟨f, t, hf, ht, rfl, _, rfl⟩ := hx
      rw [mem_zip_transitionNames h] at hf
      obtain ⟨spec, h1, h2⟩ := hf
      refine .shock h1 h2 ?_
      rw [isPeriod_iff h]
      rw [hper, range_dropLast, List.mem_range] at ht
      omega
    · exact absurd hx n5
    · exact absurd hx fixedL_transition
    · rw [hs7] at hx
      rcases hx with ⟨t, v, h1, ⟨f, h2⟩, h3, rfl, rfl⟩ | ⟨t, v, c, h1, ⟨f, h2⟩, h3, h4, h5, rfl, rfl⟩ |
        ⟨t, v, f, h1, h2, h3, h4, rfl, rfl⟩
      · exact .anchorConstant h1 h2 h3
      · exact .anchorControl h1 h2 h3 h4 h5
      · exact .anchorLoading h1 h2 h3 h4
  · intro hx
    cases hx with
    | loading h1 h2 =>
      refine Or.inl (Or.inl (Or.inl (Or.inl (Or.inl (Or.inl ?_)))))
      exact (hs1 _ _ _).mpr (Or.inl ⟨_, _, _, _, h1, h2, rfl⟩)
    | intercept h1 h2 =>
      refine Or.inl (Or.inl (Or.inl (Or.inl (Or.inl (Or.inl ?_)))))
      exact (hs1 _ _ _).mpr (Or.inr ⟨_, _, _, _, h1, h2, rfl⟩)
    | weight hw =>
      refine Or.inl (Or.inl (Or.inl (Or.inl (Or.inl (Or.inr ?_)))))
      rw [fixedL_mixture]
      refine ⟨((hasNMixtures_of_ok h 1).mp hw).symm, ?_, rfl, rfl⟩
      rw [mem_paramsIndex_iff h]
      exact .mixtureWeight (k := 0) hw (by omega)
    | shock h1 h2 h3 =>
      refine Or.inl (Or.inl (Or.inl (Or.inr ?_)))
      rw [fixedL_constant]
      refine ⟨_, _, (mem_zip_transitionNames h _ _).mpr ⟨_, h1, h2⟩, ?_, rfl, ?_, rfl⟩
      · rw [isPeriod_iff h] at h3
        rw [hper, range_dropLast, List.mem_range]
        omega
      · rw [mem_paramsIndex_iff h]
        exact .shockSd h3 ⟨_, h1⟩
    | anchorConstant h1 h2 h3 =>
      exact Or.inr ((hs7 _ _).mpr (Or.inl ⟨_, _, h1, ⟨_, h2⟩, h3, rfl, rfl⟩))
    | anchorControl h1 h2 h3 h4 h5 =>
      exact Or.inr ((hs7 _ _).mpr (Or.inr (Or.inl ⟨_, _, _, h1, ⟨_, h2⟩, h3, h4, h5, rfl, rfl⟩)))
    | anchorLoading h1 h2 h3 h4 =>
      exact Or.inr ((hs7 _ _).mpr (Or.inr (Or.inr ⟨_, _, _, h1, h2, h3, h4, rfl, rfl⟩)))

/-- **C12.** Normalized loadings and intercepts are fixed to exactly the values of the user, and no
other parameter of an ordinary measurement equation is fixed. -/
theorem C12_normalizations_enforced {m : ModelDict α} {pm : Processed α} (h : processModel m = .ok pm)
    (hk : DictKeys m) :
    ∃ cs, pm.constraints = .ok cs ∧
      (∀ f spec t v x, (f, spec) ∈ m.factors → LoadingNorm spec t v x →
        FixedTo pm.paramsIndex cs ⟨.loadings, t, v, f⟩ x) ∧
      (∀ f spec t v x, (f, spec) ∈ m.factors → InterceptNorm spec t v x →
        FixedTo pm.paramsIndex cs ⟨.controls, t, v, "constant"⟩ x) ∧
      (∀ t v f x, (¬ ∃ g, Anchors m v g) → FixedTo pm.paramsIndex cs ⟨.loadings, t, v, f⟩ x →
        ∃ spec, (f, spec) ∈ m.factors ∧ LoadingNorm spec t v x) ∧
      (∀ t v c x, (¬ ∃ g, Anchors m v g) → FixedTo pm.paramsIndex cs ⟨.controls, t, v, c⟩ x →
        c = "constant" ∧ ∃ f spec, (f, spec) ∈ m.factors ∧ InterceptNorm spec t v x) ∧
      (∀ t v x, ¬ FixedTo pm.paramsIndex cs ⟨.measSds, t, v, "-"⟩ x) := by
  obtain ⟨cs, hc, hf⟩ := constraints_fix_iff h hk
  refine ⟨cs, hc, ?_, ?_, ?_, ?_, ?_⟩
  · intro f spec t v x h1 h2; exact (hf _ _).mpr (.loading h1 h2)
  · intro f spec t v x h1 h2; exact (hf _ _).mpr (.intercept h1 h2)
  · intro t v f x hna hx
    rw [hf] at hx
    cases hx with
    | loading h1 h2 => exact ⟨_, h1, h2⟩
    | anchorLoading _ h2 => exact absurd ⟨_, h2⟩ hna
  · intro t v c x hna hx
    rw [hf] at hx
    cases hx with
    | intercept h1 h2 => exact ⟨rfl, _, _, h1, h2⟩
    | anchorConstant _ h2 => exact absurd ⟨_, h2⟩ hna
    | anchorControl _ h2 => exact absurd ⟨_, h2⟩ hna
  · intro t v x hx
    rw [hf] at hx
    cases hx

/-- **C17.** The anchoring flags: a flag that is not True fixes exactly the corresponding parameters
of every anchoring equation in every period; with the flag True, nothing of that kind is fixed
beyond explicit normalizations. -/
theorem C17_anchoring_flags {m : ModelDict α} {pm : Processed α} (h : processModel m = .ok pm)
    (hk : DictKeys m) :
    ∃ cs, pm.constraints = .ok cs ∧ ∀ v f t, Anchors m v f → IsLatent m f → IsPeriod m t →
      (¬ AnchorFlag m AnchoringSpec.freeConstant → FixedTo pm.paramsIndex cs ⟨.controls, t, v, "constant"⟩ 0) ∧
      (AnchorFlag m AnchoringSpec.freeConstant → ∀ x, FixedTo pm.paramsIndex cs ⟨.controls, t, v, "constant"⟩ x →
        ∃ g spec, (g, spec) ∈ m.factors ∧ InterceptNorm spec t v x) ∧
      (¬ AnchorFlag m AnchoringSpec.freeControls → ∀ c ∈ m.controls.getD [], c ≠ "constant" →
        FixedTo pm.paramsIndex cs ⟨.controls, t, v, c⟩ 0) ∧
      (AnchorFlag m AnchoringSpec.freeControls → ∀ c x, c ≠ "constant" →
        ¬ FixedTo pm.paramsIndex cs ⟨.controls, t, v, c⟩ x) ∧
      (¬ AnchorFlag m AnchoringSpec.freeLoadings → FixedTo pm.paramsIndex cs ⟨.loadings, t, v, f⟩ 1) ∧
      (AnchorFlag m AnchoringSpec.freeLoadings → ∀ x, FixedTo pm.paramsIndex cs ⟨.loadings, t, v, f⟩ x →
        ∃ spec, (f, spec) ∈ m.factors ∧ LoadingNorm spec t v x) := by
  obtain ⟨cs, hc, hf⟩ := constraints_fix_iff h hk
  refine ⟨cs, hc, ?_⟩
  intro v f t hA hL hP
  refine ⟨?_, ?_, ?_, ?_, ?_, ?_⟩
  · intro hn; exact (hf _ _).mpr (.anchorConstant hn hA hP)
  · intro hy x hx
    rw [hf] at hx
    cases hx with
    | intercept h1 h2 => exact ⟨_, _, h1, h2⟩
    | anchorConstant hn => exact absurd hy hn
    | anchorControl _ _ _ _ hne => exact absurd rfl hne
  · intro hn c hc hne; exact (hf _ _).mpr (.anchorControl hn hA hP hc hne)
  · intro hy c x hne hx
    rw [hf] at hx
    cases hx with
    | intercept => exact absurd rfl hne
    | anchorConstant => exact absurd rfl hne
    | anchorControl hn => exact absurd hy hn
  · intro hn; exact (hf _ _).mpr (.anchorLoading hn hA hL hP)
  · intro hy x hx
    rw [hf] at hx
    cases hx with
    | loading h1 h2 => exact ⟨_, h1, h2⟩
    | anchorLoading hn => exact absurd hy hn

/-- **C15.** The id of the i-th constraint is i. -/
theorem C15_ids {m : ModelDict α} {pm : Processed α} (h : processModel m = .ok pm) (hk : DictKeys m) :
    ∃ cs, pm.constraints = .ok cs ∧ cs.map Prod.fst = List.range cs.length ∧ (cs.map Prod.fst).Nodup := by
  obtain ⟨c1, c5, c7, _, _, _, hc⟩ := constraints_ok h hk
  refine ⟨_, hc, ?_⟩
  have : ∀ l : List (Constr α), (l.zipIdx.map (fun (c, i) => (i, c))).map Prod.fst =
      List.range (l.zipIdx.map (fun (c, i) => (i, c))).length := by
    intro l
    rw [List.map_map, List.length_map, List.length_zipIdx]
    exact (List.zipIdx_map_snd 0 l).trans (by rw [List.range_eq_range'])
  rw [this]
  exact ⟨rfl, List.nodup_range⟩

/-- Hypotheses of C18: dictionaries have distinct keys, and the user does not normalize the
intercept of one measurement equation twice, nor uses the name of an anchoring variable for a
measurement. -/
structure UnambiguousNorms (m : ModelDict α) : Prop where
  dicts : ∀ f spec t v x y, (f, spec) ∈ m.factors → LoadingNorm spec t v x → LoadingNorm spec t v y → x = y
  intercepts : ∀ f f' spec spec' t v x y, (f, spec) ∈ m.factors → (f', spec') ∈ m.factors →
    InterceptNorm spec t v x → InterceptNorm spec' t v y → x = y
  names : ∀ v f, Anchors m v f → ¬ ∃ t g, Measures m t v g

/-- **C18 (partial).** No parameter is fixed to two different values. Missing for the full
statement: models where two factors normalize the intercept of a shared measurement differently
(see the counterexample) or measurement names of the form outcome_factor. -/
theorem C18_fixes_consistent_partial {m : ModelDict α} {pm : Processed α} (h : processModel m = .ok pm)
    (hk : DictKeys m) (hu : UnambiguousNorms m) :
    ∃ cs, pm.constraints = .ok cs ∧
      ∀ l x y, FixedTo pm.paramsIndex cs l x → FixedTo pm.paramsIndex cs l y → x = y := by
  obtain ⟨cs, hc, hf⟩ := constraints_fix_iff h hk
  refine ⟨cs, hc, ?_⟩
  have hcons := (C02_accepts_iff m).mp ⟨pm, h⟩
  have hcons := hcons.2.2.1
  have hspec : ∀ f spec spec', (f, spec) ∈ m.factors → (f, spec') ∈ m.factors → spec = spec' := by
    intro f spec spec' h1 h2
    have h1 := Dict.getItem_of_mem hk.factors h1
    have h2 := Dict.getItem_of_mem hk.factors h2
    rw [h1] at h2
    exact Except.ok.inj h2
  have hmL : ∀ f spec t v x, (f, spec) ∈ m.factors → LoadingNorm spec t v x → ∃ t g, Measures m t v g := by
    intro f spec t v x h1 h2
    obtain ⟨_, ms, h3, h4⟩ := hcons.loadings f spec t v x h1 h2
    exact ⟨t, f, spec, h1, ms, h3, h4⟩
  have hmI : ∀ f spec t v x, (f, spec) ∈ m.factors → InterceptNorm spec t v x → ∃ t g, Measures m t v g := by
    intro f spec t v x h1 h2
    obtain ⟨ms, h3, h4⟩ := hcons.intercepts f spec t v x h1 h2
    exact ⟨t, f, spec, h1, ms, h3, h4⟩
  intro l x y hx hy
  rw [hf] at hx hy
  cases hx with
  | loading h1 h2 =>
    cases hy with
    | loading h3 h4 =>
      have := hspec _ _ _ h1 h3
      subst this
      exact hu.dicts _ _ _ _ _ _ h1 h2 h4
    | anchorLoading _ h4 => exact absurd (hmL _ _ _ _ _ h1 h2) (hu.names _ _ h4)
  | intercept h1 h2 =>
    cases hy with
    | intercept h3 h4 => exact hu.intercepts _ _ _ _ _ _ _ _ h1 h3 h2 h4
    | anchorConstant _ h4 => exact absurd (hmI _ _ _ _ _ h1 h2) (hu.names _ _ h4)
    | anchorControl _ _ _ _ hne => exact absurd rfl hne
  | weight => cases hy; rfl
  | shock => cases hy; rfl
  | anchorConstant _ h2 =>
    cases hy with
    | intercept h3 h4 => exact absurd (hmI _ _ _ _ _ h3 h4) (hu.names _ _ h2)
    | anchorConstant => rfl
    | anchorControl => rfl
  | anchorControl _ h2 _ _ hne =>
    cases hy with
    | intercept h3 h4 => exact absurd rfl hne
    | anchorConstant => rfl
    | anchorControl => rfl
  | anchorLoading _ h2 =>
    cases hy with
    | loading h3 h4 => exact absurd (hmL _ _ _ _ _ h3 h4) (hu.names _ _ h2)
    | anchorLoading => rfl

/-! ### stages -/

omit [OfScientific α] [Neg α] [Zero α] [One α] [OfNat α 2] [DecidableEq α] in
theorem mem_stageConstraints {sm st : List Int} {c : Constr α} :
    c ∈ getStageConstraints sm st ↔ ∃ s ∈ st,
      1 < ((sm.zipIdx.filter (fun (x : Int × Nat) => decide (x.1 = s))).map Prod.snd).length ∧
      (c = .pairwiseEquality (((sm.zipIdx.filter (fun (x : Int × Nat) => decide (x.1 = s))).map Prod.snd).map
          (fun p => .catPeriod .transition p)) ∨
       c = .pairwiseEquality (((sm.zipIdx.filter (fun (x : Int × Nat) => decide (x.1 = s))).map Prod.snd).map
          (fun p => .catPeriod .shockSds p))) := by
  unfold getStageConstraints
  simp only [List.mem_flatMap]
  constructor
  · rintro ⟨s, hs, hc⟩
    split at hc
    · rename_i hl
      simp only [List.mem_cons, List.not_mem_nil, or_false] at hc
      exact ⟨s, hs, hl, hc⟩
    · cases hc
  · rintro ⟨s, hs, hl, hc⟩
    refine ⟨s, hs, ?_⟩
    rw [if_pos hl]
    simpa using hc

theorem mem_stagePeriods {sm : List Int} {s : Int} {p : Nat} :
    p ∈ (sm.zipIdx.filter (fun (x : Int × Nat) => decide (x.1 = s))).map Prod.snd ↔ sm[p]? = some s := by
  simp only [List.mem_map, List.mem_filter, Prod.exists, List.mem_zipIdx_iff_getElem?, decide_eq_true_eq]
  constructor
  · rintro ⟨a, b, ⟨h, rfl⟩, rfl⟩; exact h
  · intro h; exact ⟨s, p, ⟨h, rfl⟩, rfl⟩

theorem two_mem_length {β : Type _} {l : List β} {a b : β} (ha : a ∈ l) (hb : b ∈ l) (hab : a ≠ b) : 1 < l.length := by
  match l with
  | [] => cases ha
  | [x] =>
    simp only [List.mem_singleton] at ha hb
    exact absurd (ha.trans hb.symm) hab
  | x :: y :: l => simp

/-- The pairwise equality constraints are exactly the stage constraints. -/
theorem mem_constraints_pairwise {m : ModelDict α} {pm : Processed α} (h : processModel m = .ok pm)
    (hk : DictKeys m) : ∃ cs, pm.constraints = .ok cs ∧ ∀ ss,
      (∃ id, (id, Constr.pairwiseEquality ss) ∈ cs) ↔
        .pairwiseEquality ss ∈ (getStageConstraints pm.labels.stagemap pm.labels.stages : List (Constr α)) := by
  obtain ⟨c1, c5, c7, h1, h5, h7, hc⟩ := constraints_ok h hk
  obtain ⟨c1', h1', hs1, _⟩ := normalizationConstraints_spec h hk
  obtain ⟨c7', h7', hs7, _⟩ := anchoringConstraints_spec h hk
  rw [h1] at h1'
  rw [h7] at h7'
  cases h1'
  cases h7'
  have hlat : pm.labels.latentFactors ≠ [] := by
    rw [(labels_of_ok h).1]
    simpa using factors_ne_nil h
  obtain ⟨c5', h5', hs5⟩ := initialStates_ok (α := α) (n := pm.dimensions.nMixtures) hlat
  rw [h5] at h5'
  cases h5'
  refine ⟨_, hc, ?_⟩
  intro ss
  have key : ∀ (l : List (Constr α)) c, (∃ id, (id, c) ∈ l.zipIdx.map (fun (c, i) => (i, c))) ↔ c ∈ l := by
    intro l c
    rw [List.mem_iff_getElem?]
    simp only [List.mem_map, Prod.exists, List.mem_zipIdx_iff_getElem?, Prod.mk.injEq]
    constructor
    · rintro ⟨id, c', i, h, rfl, rfl⟩; exact ⟨_, h⟩
    · rintro ⟨i, h⟩; exact ⟨i, c, i, h, rfl, rfl⟩
  rw [key]
  simp only [List.mem_append]
  constructor
  · rintro ((((((hx | hx) | hx) | hx) | hx) | hx) | hx)
    · rcases hs1 with rfl | ⟨ls, xs, _, _, rfl⟩
      · cases hx
      · simp at hx
    · unfold getMixtureWeightsConstraints at hx
      split at hx <;> simp at hx
    · exact hx
    · unfold getConstantFactorsConstraints at hx
      simp only [List.mem_flatMap, Prod.exists] at hx
      obtain ⟨f, tn, _, hx⟩ := hx
      split at hx
      · rw [List.mem_map] at hx
        obtain ⟨_, _, e⟩ := hx
        cases e
      · cases hx
    · rw [hs5] at hx
      split at hx
      · simp at hx
      · cases hx
    · unfold getTransitionConstraints at hx
      simp only [List.mem_flatMap, Prod.exists] at hx
      obtain ⟨f, tn, _, p, _, hx⟩ := hx
      split at hx
      · simp [constraintsLogCes] at hx
      · cases hx
    · obtain ⟨ls, x, _, e, _⟩ := hs7 _ hx
      cases e
  · intro hx; exact Or.inl (Or.inl (Or.inl (Or.inl (Or.inr hx))))

theorem stagemap_iff {m : ModelDict α} {pm : Processed α} (h : processModel m = .ok pm) (p : Nat) (s : Int) :
    pm.labels.stagemap[p]? = some s ↔ StageOf m p s := by
  have : pm.labels.stagemap = m.stagemap.getD ((List.range (pm.dimensions.nPeriods - 1)).map Int.ofNat) := by
    rw [(processModel_ok_iff.mp h).2.2.2.1]; rfl
  rw [this]
  unfold StageOf
  cases hs : m.stagemap with
  | some sm => simp
  | none =>
    simp only [Option.getD_none, reduceCtorEq, false_and, exists_false, true_and, false_or, isPeriod_iff h]
    rw [List.getElem?_map]
    rcases Nat.lt_or_ge p (pm.dimensions.nPeriods - 1) with hp | hp
    · rw [List.getElem?_eq_getElem (by simpa using hp)]
      simp only [List.getElem_range, Option.map_some, Option.some.injEq]
      constructor
      · intro e; exact ⟨by omega, e.symm⟩
      · intro e; exact e.2.symm
    · rw [List.getElem?_eq_none (by simpa using hp)]
      simp only [Option.map_none, reduceCtorEq, false_iff]
      omega

/-- **C13.** Two different transition periods have their transition parameters (and their shock
standard deviations) equated exactly if the stagemap assigns the same stage to both. -/
theorem C13_stage_equality {m : ModelDict α} {pm : Processed α} (h : processModel m = .ok pm)
    (hk : DictKeys m) : ∃ cs, pm.constraints = .ok cs ∧ ∀ p q : Nat, p ≠ q →
      ((∃ id ss, (id, Constr.pairwiseEquality ss) ∈ cs ∧ .catPeriod .transition p ∈ ss ∧ .catPeriod .transition q ∈ ss) ↔
        ∃ s, StageOf m p s ∧ StageOf m q s) ∧
      ((∃ id ss, (id, Constr.pairwiseEquality ss) ∈ cs ∧ .catPeriod .shockSds p ∈ ss ∧ .catPeriod .shockSds q ∈ ss) ↔
        ∃ s, StageOf m p s ∧ StageOf m q s) := by
  obtain ⟨cs, hc, hm⟩ := mem_constraints_pairwise h hk
  refine ⟨cs, hc, ?_⟩
  intro p q hpq
  simp only [← stagemap_iff h]
  have hst : ∀ s, s ∈ pm.labels.stages ↔ ∃ i : Nat, pm.labels.stagemap[i]? = some s := by
    intro s
    have : pm.labels.stages = npUnique pm.labels.stagemap := by
      rw [(processModel_ok_iff.mp h).2.2.2.1]; rfl
    rw [this, mem_npUnique, List.mem_iff_getElem?]
  constructor
  · constructor
    · rintro ⟨id, ss, h1, h2, h3⟩
      obtain ⟨s, _, _, e | e⟩ := mem_stageConstraints.mp ((hm ss).mp ⟨id, h1⟩)
      · cases e
        simp only [List.mem_map (f := fun p => LocSel.catPeriod Cat.transition p), LocSel.catPeriod.injEq, true_and,
          exists_eq_right] at h2 h3
        exact ⟨s, mem_stagePeriods.mp h2, mem_stagePeriods.mp h3⟩
      · cases e
        simp only [List.mem_map (f := fun p => LocSel.catPeriod Cat.shockSds p), LocSel.catPeriod.injEq] at h2
        obtain ⟨_, _, h, _⟩ := h2
        cases h
    · rintro ⟨s, h1, h2⟩
      have := mem_stageConstraints (α := α) (sm := pm.labels.stagemap) (st := pm.labels.stages)
        (c := .pairwiseEquality (((pm.labels.stagemap.zipIdx.filter (fun (x : Int × Nat) => decide (x.1 = s))).map Prod.snd).map
          (fun p => .catPeriod .transition p)))
      obtain ⟨id, hid⟩ := (hm _).mpr (this.mpr ⟨s, (hst s).mpr ⟨p, h1⟩,
        two_mem_length (mem_stagePeriods.mpr h1) (mem_stagePeriods.mpr h2) hpq, Or.inl rfl⟩)
      exact ⟨id, _, hid, List.mem_map.mpr ⟨p, mem_stagePeriods.mpr h1, rfl⟩,
        List.mem_map.mpr ⟨q, mem_stagePeriods.mpr h2, rfl⟩⟩
  · constructor
    · rintro ⟨id, ss, h1, h2, h3⟩
      obtain ⟨s, _, _, e | e⟩ := mem_stageConstraints.mp ((hm ss).mp ⟨id, h1⟩)
      · cases e
        simp only [List.mem_map (f := fun p => LocSel.catPeriod Cat.transition p), LocSel.catPeriod.injEq] at h2
        obtain ⟨_, _, h, _⟩ := h2
        cases h
      · cases e
        simp only [List.mem_map (f := fun p => LocSel.catPeriod Cat.shockSds p), LocSel.catPeriod.injEq, true_and,
          exists_eq_right] at h2 h3
        exact ⟨s, mem_stagePeriods.mp h2, mem_stagePeriods.mp h3⟩
    · rintro ⟨s, h1, h2⟩
      have := mem_stageConstraints (α := α) (sm := pm.labels.stagemap) (st := pm.labels.stages)
        (c := .pairwiseEquality (((pm.labels.stagemap.zipIdx.filter (fun (x : Int × Nat) => decide (x.1 = s))).map Prod.snd).map
          (fun p => .catPeriod .shockSds p)))
      obtain ⟨id, hid⟩ := (hm _).mpr (this.mpr ⟨s, (hst s).mpr ⟨p, h1⟩,
        two_mem_length (mem_stagePeriods.mpr h1) (mem_stagePeriods.mpr h2) hpq, Or.inr rfl⟩)
      exact ⟨id, _, hid, List.mem_map.mpr ⟨p, mem_stagePeriods.mpr h1, rfl⟩,
        List.mem_map.mpr ⟨q, mem_stagePeriods.mpr h2, rfl⟩⟩


/-! ### bounds -/

/-- Lower bound of a label in the template. -/
def BoundedBy (pm : Processed α) (l : Loc) (b : Option α) : Prop := (l, b) ∈ pm.paramsTemplate

omit [OfScientific α] [Neg α] [Zero α] [One α] [OfNat α 2] [DecidableEq α] in
theorem isDiagonalEntry_iff (s : String) :
    isDiagonalEntry s = true ↔ ∃ a : String, s = a ++ "-" ++ a := by
  have hy : "-".toList = ['-'] := by decide
  unfold isDiagonalEntry
  constructor
  · intro h
    dsimp only at h
    split at h
    · cases h
    · split at h
      · cases h
      · split at h
        · cases h
        · rename_i hodd hmid hhalf
          simp only [ne_eq, not_not] at hmid hhalf
          refine ⟨String.ofList (s.toList.take (s.toList.length / 2)), ?_⟩
          apply String.toList_inj.mp
          simp only [String.toList_append, String.toList_ofList, hy]
          conv_lhs => rw [← List.take_append_drop (s.toList.length / 2) s.toList]
          rw [List.append_assoc]
          congr 1
          have hlt : s.toList.length / 2 < s.toList.length := by
            by_contra hc
            rw [List.getElem?_eq_none (by omega)] at hmid
            cases hmid
          rw [List.drop_eq_getElem_cons hlt, ← hhalf]
          rw [List.getElem?_eq_getElem hlt, Option.some.injEq] at hmid
          rw [hmid]
          rfl
  · rintro ⟨a, rfl⟩
    simp only [String.toList_append, hy]
    have hl : (a.toList ++ ['-'] ++ a.toList).length = 2 * a.toList.length + 1 := by
      simp; omega
    have hm : (a.toList ++ ['-'] ++ a.toList).length / 2 = a.toList.length := by omega
    rw [hm, hl]
    have e1 : (2 * a.toList.length + 1) % 2 = 1 := by omega
    rw [e1]
    simp

/-- A standard deviation: of a measurement, of a shock, or a diagonal entry of an initial Cholesky
factor. -/
def IsSd (m : ModelDict α) (l : Loc) : Prop :=
  (∃ t v, IsUpdate m t v ∧ l = ⟨.measSds, t, v, "-"⟩) ∨
  (∃ t f, IsPeriod m (t + 1) ∧ IsLatent m f ∧ l = ⟨.shockSds, t, f, "-"⟩) ∨
  (∃ n k f, HasNMixtures m n ∧ k < n ∧ IsLatent m f ∧
    l = ⟨.initialCholcovs, 0, "mixture_" ++ toString k, f ++ "-" ++ f⟩)

/-- **C14 (partial).** Exactly the standard deviations have the lower bound bounds_distance; all
other parameters have none. Missing for the full statement: factor names with hyphens. -/
theorem C14_bounds_partial {m : ModelDict α} {pm : Processed α} (h : processModel m = .ok pm)
    (hg : GoodNames m) :
    pm.paramsTemplate.map Prod.fst = pm.paramsIndex ∧
    (∀ l, IsSd m l → l ∈ pm.paramsIndex) ∧
    ∀ l b, (l, b) ∈ pm.paramsTemplate →
      ((IsSd m l ∧ b = some pm.estimationOptions.boundsDistance) ∨ (¬ IsSd m l ∧ b = none)) := by
  have hlatmem : ∀ f (i : Nat), (m.factors.map Prod.fst)[i]? = some f → IsLatent m f := by
    intro f i hi
    obtain ⟨⟨f, s⟩, h1, rfl⟩ := List.mem_map.mp (List.mem_of_getElem? hi)
    exact ⟨s, h1⟩
  refine ⟨?_, ?_, ?_⟩
  · unfold Processed.paramsTemplate addBounds
    rw [List.map_map]
    exact List.map_id' _
  · rintro l (⟨t, v, hu, rfl⟩ | ⟨t, f, hp, hl, rfl⟩ | ⟨n, k, f, hn, hk, ⟨spec, hl⟩, rfl⟩)
    · exact (mem_paramsIndex_iff h _).mpr (.measSd hu)
    · exact (mem_paramsIndex_iff h _).mpr (.shockSd hp hl)
    · obtain ⟨i, hi⟩ := List.mem_iff_getElem?.mp (List.mem_map_of_mem (f := Prod.fst) hl)
      exact (mem_paramsIndex_iff h _).mpr (.cholcov hn hk (Nat.le_refl i) hi hi)
  · intro l b hl
    unfold Processed.paramsTemplate addBounds at hl
    rw [List.mem_map] at hl
    obtain ⟨l', hl', e⟩ := hl
    simp only [Prod.mk.injEq] at e
    obtain ⟨rfl, rfl⟩ := e
    rw [mem_paramsIndex_iff h] at hl'
    cases hl' with
    | control => right; simp [IsSd]
    | loading => right; simp [IsSd]
    | initialState => right; simp [IsSd]
    | mixtureWeight => right; simp [IsSd]
    | transition => right; simp [IsSd]
    | measSd hu => left; exact ⟨Or.inl ⟨_, _, hu, rfl⟩, by simp⟩
    | shockSd hp hl => left; exact ⟨Or.inr (Or.inl ⟨_, _, hp, hl, rfl⟩), by simp⟩
    | @cholcov n k i j f g hn hk hji hi hj =>
      have hf := hlatmem _ _ hi
      have hgl := hlatmem _ _ hj
      have hnf : ∀ f, IsLatent m f → '-' ∉ f.toList := by
        rintro f ⟨s, hs⟩
        exact (hg.chars f (List.mem_append_left _ (List.mem_map.mpr ⟨_, hs, rfl⟩))).1
      have hd : isDiagonalEntry (f ++ "-" ++ g) = true ↔ f = g := by
        rw [isDiagonalEntry_iff]
        constructor
        · rintro ⟨a, ha⟩
          have hla : '-' ∉ a.toList := by
            intro hc
            have hcount := congrArg (fun s : String => s.toList.count '-') ha
            have hy : "-".toList = ['-'] := by decide
            simp only [String.toList_append, hy, List.count_append] at hcount
            rw [List.count_eq_zero_of_not_mem (hnf f hf), List.count_eq_zero_of_not_mem (hnf g hgl)] at hcount
            have : 0 < a.toList.count '-' := List.count_pos_iff.mpr hc
            simp at hcount
            omega
          have := hyphen_inj (hnf f hf) hla ha
          exact this.1.trans this.2.symm
        · rintro rfl; exact ⟨f, rfl⟩
      by_cases hfg : f = g
      · left
        have h1 : isDiagonalEntry (f ++ "-" ++ g) = true := hd.mpr hfg
        refine ⟨Or.inr (Or.inr ⟨n, k, f, hn, hk, hf, by rw [hfg]⟩), ?_⟩
        rw [if_neg (by simp), if_neg (by simp), if_pos ⟨rfl, h1⟩]
      · right
        refine ⟨?_, ?_⟩
        · rintro (⟨t, v, _, e⟩ | ⟨t, f, _, _, e⟩ | ⟨n', k', f', _, _, hf', e⟩)
          · cases e
          · cases e
          · simp only [Loc.mk.injEq, true_and] at e
            have := hyphen_inj (hnf f hf) (hnf f' hf') e.2
            exact hfg (this.1.trans this.2.symm)
        · rw [if_neg (by simp), if_neg (by simp), if_neg (by
            rintro ⟨_, h1⟩; exact hfg (hd.mp h1))]

/-- **C16 (partial).** A fixed parameter with a lower bound is always the shock sd of a constant
factor; hence fixed values respect the bounds if there is no constant factor or if the bounds
distance is not positive. Missing for the full statement: false, see the counterexample. -/
theorem C16_fixed_within_bounds_partial [LE α] {m : ModelDict α} {pm : Processed α}
    (h : processModel m = .ok pm) (hk : DictKeys m) :
    ∃ cs, pm.constraints = .ok cs ∧ ∀ l x b, FixedTo pm.paramsIndex cs l x → (l, some b) ∈ pm.paramsTemplate →
      b = pm.estimationOptions.boundsDistance ∧
      (∃ t f spec, (f, spec) ∈ m.factors ∧ TransitionName spec.transition "constant" ∧
        l = ⟨.shockSds, t, f, "-"⟩ ∧ x = 0) ∧
      (pm.estimationOptions.boundsDistance ≤ 0 → b ≤ x) := by
  obtain ⟨cs, hc, hf⟩ := constraints_fix_iff h hk
  refine ⟨cs, hc, ?_⟩
  intro l x b hx hb
  rw [hf] at hx
  unfold Processed.paramsTemplate addBounds at hb
  rw [List.mem_map] at hb
  obtain ⟨l', _, e⟩ := hb
  simp only [Prod.mk.injEq] at e
  obtain ⟨rfl, e⟩ := e
  cases hx with
  | loading => simp at e
  | intercept => simp at e
  | weight => simp at e
  | anchorConstant => simp at e
  | anchorControl => simp at e
  | anchorLoading => simp at e
  | shock h1 h2 h3 =>
    simp at e
    subst e
    exact ⟨rfl, ⟨_, _, _, h1, h2, rfl, rfl⟩, fun h => h⟩

/-! ### C11: every selector selects something -/

/-- Hypotheses of C11. -/
structure Estimable (m : ModelDict α) : Prop where
  names : GoodNames m
  /-- only latent factors are anchored -/
  anchored : ∀ v f, Anchors m v f → IsLatent m f
  /-- at least one mixture element -/
  mixtures : ∀ k, HasNMixtures m k → 1 ≤ k
  /-- no user defined function is called like the built-in log_ces -/
  custom : ∀ f spec fn ps, (f, spec) ∈ m.factors → spec.transition = .custom (some fn) ps → fn ≠ "log_ces"
  /-- some factor has transition parameters, or no stage has more than one period -/
  transition : (∃ f spec name, (f, spec) ∈ m.factors ∧ HasTransitionParam (allFactors m) spec.transition name) ∨
    (∀ p q s, StageOf m p s → StageOf m q s → p = q)

/-- **C11 (partial).** Every selector of every constraint selects at least one parameter, and every
full label selects exactly one. The hypotheses (`Estimable`) are needed, see the counterexample. -/
theorem C11_selectors_exist_partial {m : ModelDict α} {pm : Processed α} (h : processModel m = .ok pm)
    (he : Estimable m) :
    ∃ cs, pm.constraints = .ok cs ∧ ∀ id c, (id, c) ∈ cs → ∀ s ∈ selectors c, SelOk pm.paramsIndex s := by
  have hk := he.names.keys
  obtain ⟨c1, c5, c7, h1, h5, h7, hc⟩ := constraints_ok h hk
  obtain ⟨c1', h1', hs1, hf1⟩ := normalizationConstraints_spec h hk
  obtain ⟨c7', h7', hs7, _⟩ := anchoringConstraints_spec h hk
  rw [h1] at h1'
  rw [h7] at h7'
  cases h1'
  cases h7'
  obtain ⟨hlatl, _, _, hper, hall, _⟩ := labels_of_ok h
  have hlat : pm.labels.latentFactors ≠ [] := by
    rw [hlatl]
    simpa using factors_ne_nil h
  obtain ⟨c5', h5', hs5⟩ := initialStates_ok (α := α) (n := pm.dimensions.nMixtures) hlat
  rw [h5] at h5'
  cases h5'
  have hnodup := C06_index_unique_partial h he.names
  have hcount : ∀ l, IsParam m l → pm.paramsIndex.count l = 1 := by
    intro l hl
    exact List.count_eq_one_of_mem hnodup ((mem_paramsIndex_iff h l).mpr hl)
  have hcons := ((C02_accepts_iff m).mp ⟨pm, h⟩).2.2.1
  refine ⟨_, hc, ?_⟩
  intro id c hmem
  have hmem : c ∈ (c1 ++ getMixtureWeightsConstraints pm.dimensions.nMixtures
        ++ getStageConstraints pm.labels.stagemap pm.labels.stages
        ++ getConstantFactorsConstraints pm.labels.latentFactors pm.labels.transitionNames pm.labels.periods
        ++ c5
        ++ getTransitionConstraints pm.labels.latentFactors pm.labels.transitionNames pm.labels.allFactors pm.labels.periods
        ++ c7) := by
    simp only [List.mem_map, Prod.exists, List.mem_zipIdx_iff_getElem?, Prod.mk.injEq] at hmem
    obtain ⟨c', i, hi, _, rfl⟩ := hmem
    exact List.mem_of_getElem? hi
  have hmw : ∀ s, s = LocSel.category .mixtureWeights → SelOk pm.paramsIndex s := by
    rintro s rfl
    have hk1 := he.mixtures _ ((hasNMixtures_of_ok h _).mpr rfl)
    have : (⟨.mixtureWeights, 0, "mixture_" ++ toString 0, "-"⟩ : Loc) ∈ pm.paramsIndex :=
      (mem_paramsIndex_iff h _).mpr (.mixtureWeight ((hasNMixtures_of_ok h _).mpr rfl) hk1)
    simp only [SelOk, selected, ne_eq]
    intro hnil
    rw [List.filter_eq_nil_iff] at hnil
    simpa using hnil _ this
  have hstage : ∀ p q : Nat, p ≠ q → ∀ s, StageOf m p s → StageOf m q s → ∀ x, StageOf m x s → IsPeriod m (x + 1) := by
    intro p q _ s _ _ x hx
    rw [← stagemap_iff h] at hx
    have hv := C03_stages_are_blocks h
    have hlen := IsNPeriods.unique hv.1 (isNPeriods_of_ok h)
    rw [isPeriod_iff h]
    by_contra hcc
    rw [List.getElem?_eq_none (by omega)] at hx
    cases hx
  simp only [List.mem_append] at hmem
  intro s hs
  rcases hmem with (((((hx | hx) | hx) | hx) | hx) | hx) | hx
  · rcases hs1 with rfl | ⟨ls, xs, hne, hlen, rfl⟩
    · cases hx
    · simp only [List.mem_singleton] at hx
      subst hx
      simp only [selectors, List.mem_singleton] at hs
      subst hs
      refine ⟨hne, ?_⟩
      intro l hl
      obtain ⟨i, hi⟩ := List.mem_iff_getElem?.mp hl
      have hil : i < ls.length := by
        by_contra hcc
        rw [List.getElem?_eq_none (by omega)] at hi
        cases hi
      have hxi : xs[i]? = some (xs[i]'(by omega)) := List.getElem?_eq_getElem (by omega)
      have := (hf1 pm.paramsIndex l _).mp (Or.inr ⟨ls, xs, List.mem_singleton.mpr rfl, i, hi, hxi⟩)
      apply hcount
      rcases this with ⟨f, spec, t, v, h1, h2, rfl⟩ | ⟨f, spec, t, v, h1, h2, rfl⟩
      · obtain ⟨_, ms, h3, h4⟩ := hcons.loadings f spec t v _ h1 h2
        exact .loading ⟨_, h1⟩ (Or.inl ⟨spec, h1, ms, h3, h4⟩)
      · obtain ⟨ms, h3, h4⟩ := hcons.intercepts f spec t v _ h1 h2
        exact .control (Or.inl ⟨f, spec, h1, ms, h3, h4⟩) (Or.inl rfl)
  · unfold getMixtureWeightsConstraints at hx
    split at hx
    · simp only [List.mem_singleton] at hx
      subst hx
      exact hmw s (by simpa [selectors] using hs)
    · simp only [List.mem_singleton] at hx
      subst hx
      exact hmw s (by simpa [selectors] using hs)
  · obtain ⟨st, _, hlen, e | e⟩ := mem_stageConstraints.mp hx
    · subst e
      simp only [selectors] at hs
      rw [List.mem_map] at hs
      obtain ⟨p, hp, rfl⟩ := hs
      rw [mem_stagePeriods, stagemap_iff h] at hp
      -- two different periods in this stage
      have htwo : ∃ p q, p ≠ q ∧ StageOf m p st ∧ StageOf m q st := by
        generalize hL : (pm.labels.stagemap.zipIdx.filter (fun (x : Int × Nat) => decide (x.1 = st))).map Prod.snd = L at hlen
        have hnd : L.Nodup := by
          rw [← hL]
          refine List.Nodup.sublist (List.Sublist.map Prod.snd (List.filter_sublist)) ?_
          rw [List.zipIdx_map_snd]
          exact List.nodup_range'
        match L, hlen, hnd, hL with
        | a :: b :: L, _, hnd, hL =>
          refine ⟨a, b, ?_, ?_, ?_⟩
          · simp only [List.nodup_cons, List.mem_cons, not_or] at hnd
            exact hnd.1.1
          · rw [← stagemap_iff h, ← mem_stagePeriods, hL]; simp
          · rw [← stagemap_iff h, ← mem_stagePeriods, hL]; simp
      obtain ⟨a, b, hab, ha, hb⟩ := htwo
      have hP := hstage a b hab st ha hb p hp
      rcases he.transition with ⟨f, spec, name, h1, h2⟩ | hinj
      · have : (⟨.transition, p, f, name⟩ : Loc) ∈ pm.paramsIndex :=
          (mem_paramsIndex_iff h _).mpr (.transition hP h1 h2)
        simp only [SelOk, selected, ne_eq]
        intro hnil
        rw [List.filter_eq_nil_iff] at hnil
        simpa using hnil _ this
      · exact absurd (hinj a b st ha hb) hab
    · subst e
      simp only [selectors] at hs
      rw [List.mem_map] at hs
      obtain ⟨p, hp, rfl⟩ := hs
      rw [mem_stagePeriods] at hp
      have hv := C03_stages_are_blocks h
      have hlen := IsNPeriods.unique hv.1 (isNPeriods_of_ok h)
      have hP : IsPeriod m (p + 1) := by
        rw [isPeriod_iff h]
        by_contra hcc
        rw [List.getElem?_eq_none (by omega)] at hp
        cases hp
      obtain ⟨⟨f, spec⟩, rest, hfs⟩ := List.exists_cons_of_ne_nil (factors_ne_nil h)
      have : (⟨.shockSds, p, f, "-"⟩ : Loc) ∈ pm.paramsIndex :=
        (mem_paramsIndex_iff h _).mpr (.shockSd hP ⟨spec, by rw [hfs]; simp⟩)
      simp only [SelOk, selected, ne_eq]
      intro hnil
      rw [List.filter_eq_nil_iff] at hnil
      simpa using hnil _ this
  · unfold getConstantFactorsConstraints at hx
    simp only [List.mem_flatMap, Prod.exists] at hx
    obtain ⟨f, tn, hf, hx⟩ := hx
    split at hx
    · rw [List.mem_map] at hx
      obtain ⟨p, hp, rfl⟩ := hx
      simp only [selectors, List.mem_singleton] at hs
      subst hs
      obtain ⟨spec, h1, _⟩ := (mem_zip_transitionNames h _ _).mp hf
      apply hcount
      refine .shockSd ?_ ⟨spec, h1⟩
      rw [isPeriod_iff h]
      rw [hper, range_dropLast, List.mem_range] at hp
      omega
    · cases hx
  · rw [hs5] at hx
    split at hx
    · rename_i hn1
      simp only [List.mem_singleton] at hx
      subst hx
      simp only [selectors, List.mem_singleton] at hs
      subst hs
      refine ⟨by rw [ne_eq, List.map_eq_nil_iff, List.range_eq_nil]; omega, ?_⟩
      intro l hl
      rw [List.mem_map] at hl
      obtain ⟨k, hk', rfl⟩ := hl
      apply hcount
      refine .initialState ((hasNMixtures_of_ok h _).mpr rfl) (List.mem_range.mp hk') ?_
      have : pm.labels.latentFactors.head hlat ∈ m.factors.map Prod.fst := by
        rw [← hlatl]; exact List.head_mem hlat
      obtain ⟨⟨f, spec⟩, h1, h2⟩ := List.mem_map.mp this
      exact ⟨spec, by rw [← h2]; exact h1⟩
    · cases hx
  · unfold getTransitionConstraints at hx
    simp only [List.mem_flatMap, Prod.exists] at hx
    obtain ⟨f, tn, hf, p, hp, hx⟩ := hx
    split at hx
    · rename_i htn
      subst htn
      simp only [List.mem_singleton] at hx
      subst hx
      simp only [constraintsLogCes, selectors, List.mem_singleton] at hs
      subst hs
      obtain ⟨spec, h1, h2⟩ := (mem_zip_transitionNames h _ _).mp hf
      have hnamed : spec.transition = .named "log_ces" := by
        cases ht : spec.transition with
        | named s => rw [ht] at h2; simp only [TransitionName] at h2; rw [h2]
        | custom fn ps =>
          rw [ht] at h2
          simp only [TransitionName] at h2
          exact absurd rfl (he.custom f spec _ ps h1 (by rw [ht, h2]))
      have hdl : (paramsLogCes pm.labels.allFactors).dropLast = allFactors m := by
        unfold paramsLogCes; rw [hall]; simp
      rw [hdl]
      refine ⟨?_, ?_⟩
      · rw [ne_eq, List.map_eq_nil_iff]
        intro hnil
        have : f ∈ allFactors m := List.mem_append_left _ (List.mem_map.mpr ⟨_, h1, rfl⟩)
        rw [hnil] at this
        cases this
      · intro l hl
        rw [List.mem_map] at hl
        obtain ⟨name, hname, rfl⟩ := hl
        apply hcount
        refine .transition ?_ h1 ?_
        · rw [isPeriod_iff h]
          rw [hper, range_dropLast, List.mem_range] at hp
          omega
        · rw [hnamed]
          exact Or.inr (Or.inr (Or.inl ⟨rfl, Or.inl hname⟩))
    · cases hx
  · obtain ⟨ls, x, hne, rfl, hls⟩ := hs7 _ hx
    simp only [selectors, List.mem_singleton] at hs
    subst hs
    refine ⟨hne, ?_⟩
    intro l hl
    apply hcount
    rcases hls l hl with ⟨t, v, c, h1, h2, rfl⟩ | ⟨t, v, f, h1, h2, rfl⟩
    · exact .control h1 h2
    · exact .loading (he.anchored _ _ h2) (Or.inr ⟨h1, h2⟩)

end
end Skill
