import Verif.Props.Constraints3
import Verif.Spec.Admissible
import Mathlib.Algebra.BigOperators.Intervals

/-! C120: constraints and bounds describe exactly the admissible parameters. -/

namespace Skill
open Spec

theorem selected_many {index ls : List Loc} (h : ∀ l ∈ ls, index.count l = 1) : selected index (.many ls) = ls := by
  induction ls with
  | nil => rfl
  | cons a ls ih =>
    have ha : index.filter (fun k => decide (k = a)) = [a] := by
      have h1 := h a List.mem_cons_self
      rw [List.count_eq_length_filter] at h1
      obtain ⟨b, hb⟩ := List.length_eq_one_iff.mp h1
      have hb' : index.filter (fun k => decide (k = a)) = [b] := by
        rw [← hb]
        congr 1
      have : b ∈ index.filter (fun k => decide (k = a)) := by rw [hb']; exact List.mem_singleton.mpr rfl
      have : b = a := by simpa using (List.mem_filter.mp this).2
      rw [hb', this]
    have := ih (fun l hl => h l (List.mem_cons_of_mem _ hl))
    simp only [selected, List.flatMap_cons] at this ⊢
    rw [ha, this]
    rfl

theorem meets_iff_fixedTo {index : List Loc} {cs : List (Nat × Constr ℝ)} {val : Loc → ℝ}
    (h : ∀ id sel xs, (id, .fixed sel (.vec xs)) ∈ cs → ∃ ls, sel = .many ls ∧ ls.length = xs.length ∧ ∀ l ∈ ls, index.count l = 1) :
    (∀ id c, (id, c) ∈ cs → Meets index val c) ↔ (∀ l x, FixedTo index cs l x → val l = x) ∧ ∀ id c, (id, c) ∈ cs → (∀ s v, c ≠ .fixed s v) → Meets index val c := by
  constructor
  · intro hm
    refine ⟨?_, fun id c hc _ => hm id c hc⟩
    rintro l x (⟨id, sel, h1, h2⟩ | ⟨id, ls, xs, h1, i, h2, h3⟩)
    · exact hm _ _ h1 l h2
    · obtain ⟨ls', e, hl, hc⟩ := h _ _ _ h1
      cases e
      have := hm _ _ h1
      simp only [Meets] at this
      rw [selected_many hc] at this
      rw [← this, List.getElem?_map, h2] at h3
      exact Option.some.inj h3
  · rintro ⟨h1, h2⟩ id c hc
    match c, hc with
    | .fixed sel (.scalar x), hc => exact fun l hl => h1 l x (Or.inl ⟨id, sel, hc, hl⟩)
    | .fixed sel (.vec xs), hc =>
      obtain ⟨ls, rfl, hl, hcount⟩ := h _ _ _ hc
      simp only [Meets]
      rw [selected_many hcount]
      refine List.ext_getElem (by simpa using hl) (fun i h3 h4 => ?_)
      rw [List.getElem_map]
      exact h1 _ _ (Or.inr ⟨id, ls, xs, hc, i, List.getElem?_eq_getElem (by simpa using h3), List.getElem?_eq_getElem h4⟩)
    | .probability s, hc => exact h2 id _ hc (by simp)
    | .increasing s, hc => exact h2 id _ hc (by simp)
    | .pairwiseEquality s, hc => exact h2 id _ hc (by simp)

variable {m : ModelDict ℝ} {pm : Processed ℝ}

theorem boundsDistance_iff (h : processModel m = .ok pm) (d : ℝ) : BoundsDistance m d ↔ d = pm.estimationOptions.boundsDistance := by
  obtain ⟨u, hu, _, _, h1, h2, h3, _⟩ := C04_options h
  constructor
  · rintro ⟨o, ho, ⟨hr, rfl⟩ | ⟨hr, rfl⟩⟩
    · cases hu.symm.trans ho
      exact (h1 hr).symm
    · cases hu.symm.trans ho
      cases hb : u.boundsDistance with
      | none =>
        rw [h3 hr hb]
        norm_num
      | some x => rw [h2 x hr hb]; rfl
  · rintro rfl
    refine ⟨u, hu, ?_⟩
    by_cases hr : u.robustBounds = some false
    · exact Or.inl ⟨hr, h1 hr⟩
    · refine Or.inr ⟨hr, ?_⟩
      cases hb : u.boundsDistance with
      | none =>
        rw [h3 hr hb]
        norm_num
      | some x => rw [h2 x hr hb]; rfl

theorem withinBounds_iff (h : processModel m = .ok pm) (hg : GoodNames m) (val : Loc → ℝ) :
    WithinBounds pm.paramsTemplate val ↔ ∀ l, IsSd m l → pm.estimationOptions.boundsDistance ≤ val l := by
  obtain ⟨h1, h2, h3⟩ := C14_bounds_partial h hg
  constructor
  · intro hw l hl
    have := h2 l hl
    rw [← h1] at this
    obtain ⟨⟨l', b⟩, hm, rfl⟩ := List.mem_map.mp this
    rcases h3 _ _ hm with ⟨_, rfl⟩ | ⟨hn, _⟩
    · exact hw _ _ hm
    · exact absurd hl hn
  · intro hs l b hm
    rcases h3 _ _ hm with ⟨hl, e⟩ | ⟨_, e⟩
    · cases e
      exact hs l hl
    · cases e

theorem meets_weights (val : Loc → ℝ) : Meets pm.paramsIndex val (.probability (.category .mixtureWeights)) ↔
    (∀ e < pm.dimensions.nMixtures, 0 ≤ val ⟨.mixtureWeights, 0, "mixture_" ++ toString e, "-"⟩) ∧ ∑ e ∈ Finset.range pm.dimensions.nMixtures, val ⟨.mixtureWeights, 0, "mixture_" ++ toString e, "-"⟩ = 1 := by
  simp only [Meets, selected, Processed.paramsIndex, filter_cat, block, mixtureWeightsIndexTuples, List.map_map, List.forall_mem_map, List.mem_range]
  exact Iff.rfl

theorem meets_stages (h : processModel m = .ok pm) (val : Loc → ℝ) : (∀ c ∈ (getStageConstraints pm.labels.stagemap pm.labels.stages : List (Constr ℝ)), Meets pm.paramsIndex val c) ↔
    (∀ p q s, StageOf m p s → StageOf m q s → ∀ f spec name, (f, spec) ∈ m.factors → HasTransitionParam (allFactors m) spec.transition name → val ⟨.transition, p, f, name⟩ = val ⟨.transition, q, f, name⟩) ∧
    (∀ p q s, StageOf m p s → StageOf m q s → ∀ f, IsLatent m f → val ⟨.shockSds, p, f, "-"⟩ = val ⟨.shockSds, q, f, "-"⟩) := by
  obtain ⟨hlatl, _, _, hper, _⟩ := labels_of_ok h
  have hlt : ∀ (p : Nat) (s : Int), StageOf m p s → p < pm.dimensions.nPeriods - 1 := by
    intro p s hp
    rcases hp with ⟨sm, hsm, hp⟩ | ⟨_, hp, _⟩
    · have hcon := (checkModel_ok_iff (isNPeriods_of_ok h)).mp (processModel_ok_iff.mp h).2.1
      have := (hcon.stagemap _ _ (isNPeriods_of_ok h) hsm).length
      have := (List.getElem?_eq_some_iff.mp hp).1
      omega
    · rw [isPeriod_iff h] at hp; omega
  have htrans : ∀ p q, p < pm.dimensions.nPeriods - 1 → q < pm.dimensions.nPeriods - 1 → ((selected pm.paramsIndex (.catPeriod .transition p)).map val = (selected pm.paramsIndex (.catPeriod .transition q)).map val ↔
      ∀ f spec name, (f, spec) ∈ m.factors → HasTransitionParam (allFactors m) spec.transition name → val ⟨.transition, p, f, name⟩ = val ⟨.transition, q, f, name⟩) := by
    intro p q hp hq
    have hnames : ∀ f name, (∃ fn ∈ pm.transitionInfo.paramNames, fn.1 = f ∧ name ∈ fn.2) ↔ ∃ spec, (f, spec) ∈ m.factors ∧ HasTransitionParam (allFactors m) spec.transition name := by
      intro f name
      have h1 := mem_paramsIndex_iff h ⟨.transition, p, f, name⟩
      have h2 : (⟨.transition, p, f, name⟩ : Loc) ∈ pm.paramsIndex ↔ (⟨.transition, p, f, name⟩ : Loc) ∈ selected pm.paramsIndex (.catPeriod .transition p) := by simp [selected]
      rw [h2] at h1
      simp only [selected, Processed.paramsIndex, filter_cat_period, transition_period hper, if_pos hp] at h1
      simp only [List.mem_flatMap, List.mem_map, Loc.mk.injEq, true_and] at h1
      constructor
      · rintro ⟨fn, h3, rfl, h4⟩
        cases h1.mp ⟨fn, h3, name, h4, rfl, rfl⟩ with
        | transition _ h5 h6 => exact ⟨_, h5, h6⟩
      · rintro ⟨spec, h3, h4⟩
        obtain ⟨fn, h5, x, h6, rfl, rfl⟩ := h1.mpr (.transition ((isPeriod_iff h _).mpr (by omega)) h3 h4)
        exact ⟨fn, h5, rfl, h6⟩
    simp only [selected, Processed.paramsIndex, filter_cat_period, transition_period hper, if_pos hp, if_pos hq, List.map_flatMap, List.map_map]
    have hflat : ∀ r, (pm.transitionInfo.paramNames.flatMap (fun fn => fn.2.map (val ∘ fun nm => ⟨.transition, r, fn.1, nm⟩))) =
        (pm.transitionInfo.paramNames.flatMap (fun fn => fn.2.map (fun nm => (fn.1, nm)))).map (fun x => val ⟨.transition, r, x.1, x.2⟩) := by
      intro r
      simp [List.map_flatMap, Function.comp_def]
    rw [hflat, hflat, List.map_inj_left]
    simp only [List.mem_flatMap, List.mem_map, Prod.forall, Prod.mk.injEq]
    constructor
    · intro h3 f spec name h4 h5
      obtain ⟨fn, h6, rfl, h7⟩ := (hnames f name).mpr ⟨spec, h4, h5⟩
      exact h3 _ _ ⟨fn, h6, name, h7, rfl, rfl⟩
    · rintro h3 f name ⟨fn, h6, nm, h7, rfl, rfl⟩
      obtain ⟨spec, h4, h5⟩ := (hnames fn.1 nm).mp ⟨fn, h6, rfl, h7⟩
      exact h3 _ _ _ h4 h5
  have hshock : ∀ p q, p < pm.dimensions.nPeriods - 1 → q < pm.dimensions.nPeriods - 1 → ((selected pm.paramsIndex (.catPeriod .shockSds p)).map val = (selected pm.paramsIndex (.catPeriod .shockSds q)).map val ↔
      ∀ f, IsLatent m f → val ⟨.shockSds, p, f, "-"⟩ = val ⟨.shockSds, q, f, "-"⟩) := by
    intro p q hp hq
    simp only [selected, Processed.paramsIndex, filter_cat_period, shockSds_period hper, if_pos hp, if_pos hq, List.map_map]
    rw [List.map_inj_left, hlatl]
    constructor
    · rintro h3 f ⟨spec, hf⟩
      exact h3 f (List.mem_map_of_mem (f := Prod.fst) hf)
    · intro h3 f hf
      obtain ⟨⟨g, spec⟩, h1, rfl⟩ := List.mem_map.mp hf
      exact h3 _ ⟨spec, h1⟩
  have hst : ∀ s, s ∈ pm.labels.stages ↔ ∃ i : Nat, pm.labels.stagemap[i]? = some s := by
    intro s
    have : pm.labels.stages = npUnique pm.labels.stagemap := by
      rw [(processModel_ok_iff.mp h).2.2.2.1]; rfl
    rw [this, mem_npUnique, List.mem_iff_getElem?]
  have hpair : ∀ (c : Cat) (s : Int) (p q : ℕ), p ≠ q → StageOf m p s → StageOf m q s → c = .transition ∨ c = .shockSds →
      Constr.pairwiseEquality (((pm.labels.stagemap.zipIdx.filter (fun (x : Int × Nat) => decide (x.1 = s))).map Prod.snd).map (fun p => LocSel.catPeriod c p)) ∈ (getStageConstraints pm.labels.stagemap pm.labels.stages : List (Constr ℝ)) := by
    intro c s p q hpq hp hq hc
    rw [← stagemap_iff h, ← mem_stagePeriods] at hp hq
    rw [mem_stageConstraints]
    refine ⟨s, (hst s).mpr ⟨p, mem_stagePeriods.mp hp⟩, two_mem_length hp hq hpq, ?_⟩
    rcases hc with rfl | rfl
    · exact Or.inl rfl
    · exact Or.inr rfl
  constructor
  · intro hm
    refine ⟨fun p q s hp hq => ?_, fun p q s hp hq => ?_⟩
    · by_cases hpq : p = q
      · subst hpq
        intros
        rfl
      · rw [← htrans p q (hlt p s hp) (hlt q s hq)]
        refine hm _ (hpair .transition s p q hpq hp hq (Or.inl rfl)) _ (List.mem_map_of_mem ?_) _ (List.mem_map_of_mem ?_)
        · rwa [mem_stagePeriods, stagemap_iff h]
        · rwa [mem_stagePeriods, stagemap_iff h]
    · by_cases hpq : p = q
      · subst hpq
        intros
        rfl
      · rw [← hshock p q (hlt p s hp) (hlt q s hq)]
        refine hm _ (hpair .shockSds s p q hpq hp hq (Or.inr rfl)) _ (List.mem_map_of_mem ?_) _ (List.mem_map_of_mem ?_)
        · rwa [mem_stagePeriods, stagemap_iff h]
        · rwa [mem_stagePeriods, stagemap_iff h]
  · rintro ⟨h1, h2⟩ c hc
    obtain ⟨s, _, _, rfl | rfl⟩ := mem_stageConstraints.mp hc
    · intro s1 hs1 s2 hs2
      obtain ⟨p, hp, rfl⟩ := List.mem_map.mp hs1
      obtain ⟨q, hq, rfl⟩ := List.mem_map.mp hs2
      rw [mem_stagePeriods, stagemap_iff h] at hp hq
      exact (htrans p q (hlt p s hp) (hlt q s hq)).mpr (h1 p q s hp hq)
    · intro s1 hs1 s2 hs2
      obtain ⟨p, hp, rfl⟩ := List.mem_map.mp hs1
      obtain ⟨q, hq, rfl⟩ := List.mem_map.mp hs2
      rw [mem_stagePeriods, stagemap_iff h] at hp hq
      exact (hshock p q (hlt p s hp) (hlt q s hq)).mpr (h2 p q s hp hq)

/-- **C120.** The constraints and lower bounds of the optimization are satisfied by exactly the values that the model allows. -/
theorem C120_admissible_iff (h : processModel m = .ok pm) (he : Estimable m) :
    ∃ cs, pm.constraints = .ok cs ∧ ∀ val : Loc → ℝ, ((∀ id c, (id, c) ∈ cs → Meets pm.paramsIndex val c) ∧ WithinBounds pm.paramsTemplate val) ↔ Admissible m val := by
  have hk := he.names.keys
  obtain ⟨c1, c5, c7, h1, h5, h7, hc⟩ := constraints_ok h hk
  obtain ⟨c1', h1', hs1, hf1⟩ := normalizationConstraints_spec h hk
  obtain ⟨c7', h7', hs7, _⟩ := anchoringConstraints_spec h hk
  rw [h1] at h1'
  rw [h7] at h7'
  cases h1'
  cases h7'
  obtain ⟨hlatl, _, _, hper, hall, _⟩ := labels_of_ok h
  have hlat : pm.labels.latentFactors ≠ [] := by
    rw [hlatl]
    simpa using factors_ne_nil h
  obtain ⟨c5', h5', hs5⟩ := initialStates_ok (α := ℝ) (n := pm.dimensions.nMixtures) hlat
  rw [h5] at h5'
  cases h5'
  obtain ⟨cs, hcs, hfix⟩ := constraints_fix_iff h hk
  obtain ⟨cs', hcs', hsel⟩ := C11_selectors_exist_partial h he
  cases hcs.symm.trans hcs'
  have hlist := Except.ok.inj (hc.symm.trans hcs)
  refine ⟨cs, hcs, fun val => ?_⟩
  have hmem : ∀ c, (∃ id, (id, c) ∈ cs) ↔ c ∈ (c1 ++ getMixtureWeightsConstraints pm.dimensions.nMixtures
        ++ getStageConstraints pm.labels.stagemap pm.labels.stages
        ++ getConstantFactorsConstraints pm.labels.latentFactors pm.labels.transitionNames pm.labels.periods
        ++ c5
        ++ getTransitionConstraints pm.labels.latentFactors pm.labels.transitionNames pm.labels.allFactors pm.labels.periods
        ++ c7) := by
    intro c
    rw [← hlist, List.mem_iff_getElem?]
    simp only [List.mem_map, Prod.exists, List.mem_zipIdx_iff_getElem?, Prod.mk.injEq]
    constructor
    · rintro ⟨id, c', i, h, rfl, rfl⟩; exact ⟨_, h⟩
    · rintro ⟨i, h⟩; exact ⟨i, c, i, h, rfl, rfl⟩
  have hmeets : (∀ id c, (id, c) ∈ cs → Meets pm.paramsIndex val c) ↔ (∀ l x, ShouldFix m l x → val l = x) ∧ ∀ id c, (id, c) ∈ cs → (∀ s v, c ≠ .fixed s v) → Meets pm.paramsIndex val c := by
    rw [meets_iff_fixedTo]
    · simp only [hfix]
    · intro id sel xs hin
      have hso := hsel id _ hin sel (by simp [selectors])
      have := (hmem _).mp ⟨id, hin⟩
      simp only [List.mem_append] at this
      rcases this with (((((hx | hx) | hx) | hx) | hx) | hx) | hx
      · rcases hs1 with rfl | ⟨ls, xs, hne, hlen, rfl⟩
        · cases hx
        · simp only [List.mem_singleton, Constr.fixed.injEq, FixVal.vec.injEq] at hx
          obtain ⟨rfl, rfl⟩ := hx
          exact ⟨ls, rfl, hlen, hso.2⟩
      · unfold getMixtureWeightsConstraints at hx
        split at hx <;> simp at hx
      · obtain ⟨st, _, hlen, e | e⟩ := mem_stageConstraints.mp hx <;> cases e
      · unfold getConstantFactorsConstraints at hx
        simp only [List.mem_flatMap, Prod.exists] at hx
        obtain ⟨f, tn, _, hx⟩ := hx
        split at hx
        · obtain ⟨t, _, e⟩ := List.mem_map.mp hx
          cases e
        · cases hx
      · rw [hs5] at hx
        split at hx <;> simp at hx
      · unfold getTransitionConstraints at hx
        simp only [List.mem_flatMap, Prod.exists] at hx
        obtain ⟨f, tn, _, t, _, hx⟩ := hx
        split at hx
        · simp [constraintsLogCes] at hx
        · cases hx
      · obtain ⟨ls, x, _, e, _⟩ := hs7 _ hx
        cases e
  have hordersel : pm.dimensions.nMixtures > 1 → selected pm.paramsIndex (.many ((List.range pm.dimensions.nMixtures).map (fun k => ⟨.initialStates, 0, mixtureName k, pm.labels.latentFactors.head hlat⟩))) =
      (List.range pm.dimensions.nMixtures).map (fun k => ⟨.initialStates, 0, mixtureName k, pm.labels.latentFactors.head hlat⟩) := by
    intro hk1
    obtain ⟨id, hid⟩ := (hmem (.increasing (.many ((List.range pm.dimensions.nMixtures).map (fun k => ⟨.initialStates, 0, mixtureName k, pm.labels.latentFactors.head hlat⟩))))).mpr (by
      rw [hs5, if_pos hk1]
      simp)
    exact selected_many (hsel _ _ hid _ (List.mem_singleton.mpr rfl)).2
  have hces : ∀ t f spec, IsPeriod m (t + 1) → (f, spec) ∈ m.factors → spec.transition = .named "log_ces" → (∃ id, (id, (constraintsLogCes f pm.labels.allFactors t : Constr ℝ)) ∈ cs) ∧
      selected pm.paramsIndex (.many ((paramsLogCes pm.labels.allFactors).dropLast.map (fun name => ⟨.transition, t, f, name⟩))) = (allFactors m).map (fun name => ⟨.transition, t, f, name⟩) := by
    intro t f spec ht hf hs
    have hid := (hmem (constraintsLogCes f pm.labels.allFactors t)).mpr (by
      have : (constraintsLogCes f pm.labels.allFactors t : Constr ℝ) ∈ getTransitionConstraints pm.labels.latentFactors pm.labels.transitionNames pm.labels.allFactors pm.labels.periods := by
        unfold getTransitionConstraints
        simp only [List.mem_flatMap, Prod.exists]
        refine ⟨f, "log_ces", (mem_zip_transitionNames h f _).mpr ⟨spec, hf, by rw [hs]; rfl⟩, t, ?_, by simp⟩
        rw [hper, range_dropLast, List.mem_range]
        rw [isPeriod_iff h] at ht
        omega
      simp [this])
    refine ⟨hid, ?_⟩
    obtain ⟨id, hid⟩ := hid
    rw [selected_many (hsel _ _ hid _ (List.mem_singleton.mpr rfl)).2, hall]
    simp [paramsLogCes, allFactors]
  rw [hmeets, withinBounds_iff h he.names]
  constructor
  · rintro ⟨⟨hfx, hnf⟩, hb⟩
    have hstages := (meets_stages h val).mp (fun c hcm => by
      obtain ⟨id, hid⟩ := (hmem c).mpr (by simp [hcm])
      refine hnf id c hid ?_
      obtain ⟨st, _, _, rfl | rfl⟩ := mem_stageConstraints.mp hcm <;> simp)
    refine ⟨hfx, ?_, hstages.1, hstages.2, ?_, ?_, ?_, ?_, ?_⟩
    · intro k hk
      obtain rfl := (hasNMixtures_of_ok h k).mp hk
      by_cases hk1 : pm.dimensions.nMixtures = 1
      · rw [hk1] at hk ⊢
        have := hfx _ _ (.weight hk)
        have e : "mixture_" ++ toString 0 = "mixture_0" := by decide
        refine ⟨fun e he => ?_, ?_⟩
        · obtain rfl : e = 0 := by omega
          rw [‹"mixture_" ++ toString 0 = "mixture_0"›, this]
          exact zero_le_one
        · rw [Finset.sum_range_one, e, this]
      · obtain ⟨id, hid⟩ := (hmem (.probability (.category .mixtureWeights))).mpr (by
          unfold getMixtureWeightsConstraints
          rw [if_neg hk1]
          simp)
        exact (meets_weights val).mp (hnf id _ hid (by simp))
    · intro k f hk hf e e' hee hek
      obtain rfl := (hasNMixtures_of_ok h k).mp hk
      by_cases hk1 : pm.dimensions.nMixtures > 1
      · obtain ⟨id, hid⟩ := (hmem (.increasing (.many ((List.range pm.dimensions.nMixtures).map (fun k => ⟨.initialStates, 0, mixtureName k, pm.labels.latentFactors.head hlat⟩))))).mpr (by
          rw [hs5, if_pos hk1]
          simp)
        have := hnf id _ hid (by simp)
        simp only [Meets] at this
        rw [hordersel hk1, List.map_map, List.pairwise_map] at this
        rcases hee.eq_or_lt with rfl | hlt
        · exact le_rfl
        · have hfh : pm.labels.latentFactors.head hlat = f := by
            rw [← hlatl] at hf
            rw [List.head?_eq_some_head hlat] at hf
            exact Option.some.inj hf
          rw [List.pairwise_iff_getElem] at this
          have := this e e' (by simp; omega) (by simpa using hek) hlt
          simpa [hfh, mixtureName] using this
      · obtain rfl : e = e' := by omega
        exact le_rfl
    · intro t f spec ht hf hs
      obtain ⟨⟨id, hid⟩, hselc⟩ := hces t f spec ht hf hs
      have := hnf id _ hid (by simp [constraintsLogCes])
      simp only [constraintsLogCes, Meets] at this
      rw [hselc] at this
      simpa [Function.comp_def] using this
    · intro d t v hd hu
      rw [(boundsDistance_iff h d).mp hd]
      exact hb _ (Or.inl ⟨t, v, hu, rfl⟩)
    · intro d t f hd ht hf
      rw [(boundsDistance_iff h d).mp hd]
      exact hb _ (Or.inr (Or.inl ⟨t, f, ht, hf, rfl⟩))
    · intro d k e f hd hk he hf
      rw [(boundsDistance_iff h d).mp hd]
      exact hb _ (Or.inr (Or.inr ⟨k, e, f, hk, he, hf, rfl⟩))
  · intro ha
    have hd := (boundsDistance_iff h _).mpr rfl
    have hk := (hasNMixtures_of_ok h _).mpr rfl
    refine ⟨⟨ha.fixes, ?_⟩, ?_⟩
    · intro id c hin hnfix
      have := (hmem _).mp ⟨id, hin⟩
      simp only [List.mem_append] at this
      rcases this with (((((hx | hx) | hx) | hx) | hx) | hx) | hx
      · rcases hs1 with rfl | ⟨ls, xs, hne, hlen, rfl⟩
        · cases hx
        · rw [List.mem_singleton] at hx
          exact absurd hx (hnfix _ _)
      · unfold getMixtureWeightsConstraints at hx
        split at hx
        · rw [List.mem_singleton] at hx
          exact absurd hx (hnfix _ _)
        · rw [List.mem_singleton] at hx
          subst hx
          exact (meets_weights val).mpr (ha.weights _ hk)
      · exact (meets_stages h val).mpr ⟨ha.stages, ha.stageShocks⟩ c hx
      · unfold getConstantFactorsConstraints at hx
        simp only [List.mem_flatMap, Prod.exists] at hx
        obtain ⟨f, tn, _, hx⟩ := hx
        split at hx
        · obtain ⟨t, _, rfl⟩ := List.mem_map.mp hx
          exact absurd rfl (hnfix _ _)
        · cases hx
      · rw [hs5] at hx
        split at hx
        · rename_i hk1
          rw [List.mem_singleton] at hx
          subst hx
          simp only [Meets]
          rw [hordersel hk1, List.map_map, List.pairwise_map, List.pairwise_iff_getElem]
          intro i j hi hj hij
          have := ha.order _ _ hk (by rw [← hlatl]; exact List.head?_eq_some_head hlat) i j hij.le (by simpa using hj)
          simpa [mixtureName] using this
        · cases hx
      · unfold getTransitionConstraints at hx
        simp only [List.mem_flatMap, Prod.exists] at hx
        obtain ⟨f, tn, hz, t, ht, hx⟩ := hx
        split at hx
        · rename_i htn
          subst htn
          rw [List.mem_singleton] at hx
          subst hx
          obtain ⟨spec, hf, hs⟩ := (mem_zip_transitionNames h f _).mp hz
          have hs : spec.transition = .named "log_ces" := by
            cases htr : spec.transition with
            | named s =>
              rw [htr] at hs
              exact congrArg _ (Eq.symm hs)
            | custom fn ps =>
              rw [htr] at hs
              have hs : fn = some "log_ces" := hs
              subst hs
              exact absurd rfl (he.custom f spec _ ps hf htr)
          have ht : IsPeriod m (t + 1) := by
            rw [hper, range_dropLast, List.mem_range] at ht
            rw [isPeriod_iff h]
            omega
          simp only [constraintsLogCes, Meets]
          rw [(hces t f spec ht hf hs).2]
          simpa [Function.comp_def] using ha.shares t f spec ht hf hs
        · cases hx
      · obtain ⟨ls, x, _, e, _⟩ := hs7 _ hx
        exact absurd e (hnfix _ _)
    · rintro l (⟨t, v, hu, rfl⟩ | ⟨t, f, hp, hl, rfl⟩ | ⟨n, k, f, hn, hk, hl, rfl⟩)
      · exact ha.measSds _ t v hd hu
      · exact ha.shockSds _ t f hd hp hl
      · exact ha.diagonal _ n k f hd hn hk hl

end Skill
