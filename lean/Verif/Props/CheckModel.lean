import Verif.Lemmas.CheckModel
import Verif.Examples.Models
/-
C02 (acceptance of specifications), C03 (stagemaps), C04 (options), C61 (kind of exception),
C62 (optional sections).
-/
namespace Skill
open Spec
variable {α : Type}

theorem getDimensions_ok_iff {m : ModelDict α} :
    (∃ d, getDimensions m = .ok d) ↔ m.factors ≠ [] ∧ m.estimationOptions.isSome := by
  constructor
  · rintro ⟨d, h⟩
    obtain ⟨o, n, ho, hn, _⟩ := getDimensions_ok h
    obtain ⟨⟨f, s, hm, _⟩, _⟩ := hn
    exact ⟨by intro h; simp [h] at hm, by simp [ho]⟩
  · rintro ⟨h1, h2⟩
    obtain ⟨o, ho⟩ := Option.isSome_iff_exists.mp h2
    unfold getDimensions
    cases hf : m.factors with
    | nil => exact absurd hf h1
    | cons x xs => simp only [List.map_cons, pyMax, ho]; exact ⟨_, rfl⟩

theorem builtinParamNames_isSome (s : String) :
    (builtinParamNames s).isSome ↔ ValidTransition (.named s) := by
  unfold builtinParamNames ValidTransition
  simp only [List.mem_cons, List.not_mem_nil, or_false]
  split_ifs <;> simp_all

theorem transitionNamesOf_ok (af : List String) (ts : TransSpec) :
    (∃ r, transitionNamesOf af ts = .ok r) ↔ ValidTransition ts := by
  cases ts with
  | named s =>
    rw [← builtinParamNames_isSome]
    cases h : builtinParamNames s <;> simp [transitionNamesOf, h]
  | custom fn ps =>
    cases fn <;> cases ps <;> simp [transitionNamesOf, ValidTransition]

theorem transitionNamesOf_error (af : List String) (ts : TransSpec) {e} 
    (h : transitionNamesOf af ts = .error e) : e = .attributeError := by
  cases ts with
  | named s =>
    unfold transitionNamesOf at h
    cases hb : builtinParamNames s <;> simp_all
  | custom fn ps =>
    cases fn <;> cases ps <;> simp_all [transitionNamesOf]

/-- `mapM` fails with an error of one of the elements. -/
theorem mapM_error {β γ : Type _} {f : β → Py γ} {xs : List β} {e}
    (h : xs.mapM f = .error e) : ∃ x ∈ xs, f x = .error e := by
  induction xs with
  | nil => rw [List.mapM_nil] at h; cases h
  | cons x xs ih =>
    rw [List.mapM_cons] at h
    cases hx : f x with
    | error e' => rw [hx] at h; cases h; exact ⟨x, by simp, hx⟩
    | ok y =>
      cases hxs : xs.mapM f with
      | error e' =>
        simp only [hx, hxs, bind, Except.bind] at h
        cases h
        obtain ⟨z, hz, he⟩ := ih hxs
        exact ⟨z, by simp [hz], he⟩
      | ok ys => simp only [hx, hxs, bind, Except.bind] at h; cases h

theorem mapM_ok_of_forall {β γ : Type _} {f : β → Py γ} {xs : List β}
    (h : ∀ x ∈ xs, ∃ y, f x = .ok y) : ∃ ys, xs.mapM f = .ok ys := by
  cases hm : xs.mapM f with
  | ok ys => exact ⟨ys, rfl⟩
  | error e =>
    obtain ⟨x, hx, he⟩ := mapM_error hm
    obtain ⟨y, hy⟩ := h x hx
    rw [hy] at he; cases he

theorem getTransitionInfo_ok_iff {m : ModelDict α} {l : Labels} :
    (∃ t, getTransitionInfo m l = .ok t) ↔ ∀ f spec, (f, spec) ∈ m.factors → ValidTransition spec.transition := by
  unfold getTransitionInfo
  constructor
  · rintro ⟨t, h⟩ f spec hmem
    obtain ⟨infos, hi, _⟩ := py_bind_ok.mp h
    rw [mapM_ok_iff] at hi
    obtain ⟨y, _, hr⟩ := forall₂_mem hi hmem
    obtain ⟨r, hr, _⟩ := py_bind_ok.mp hr
    exact (transitionNamesOf_ok _ _).mp ⟨r, hr⟩
  · intro h
    obtain ⟨ys, hys⟩ := mapM_ok_of_forall (f := fun x : String × FactorSpec α => (do
      let r ← transitionNamesOf l.allFactors x.2.transition
      pure (x.1, r) : Py _)) (xs := m.factors) (by
        rintro ⟨f, spec⟩ hmem
        obtain ⟨r, hr⟩ := (transitionNamesOf_ok l.allFactors spec.transition).mpr (h f spec hmem)
        exact ⟨(f, r), by simp only [hr]; rfl⟩)
    exact ⟨_, py_bind_ok.mpr ⟨ys, hys, rfl⟩⟩

theorem processNormalizations_ok_iff {m : ModelDict α} {d : Dimensions} (hn : IsNPeriods m d.nPeriods) :
    (∃ t, processNormalizations m d = .ok t) ↔ NormListsFit m := by
  unfold processNormalizations
  constructor
  · rintro ⟨t, h⟩ f spec ns n hmem hns hn'
    rw [IsNPeriods.unique hn' hn]
    rw [mapM_ok_iff] at h
    obtain ⟨y, _, hr⟩ := forall₂_mem h hmem
    obtain ⟨l1, hl1, hr⟩ := py_bind_ok.mp hr
    obtain ⟨l2, hl2, hr⟩ := py_bind_ok.mp hr
    rw [fillList_ok] at hl1 hl2
    constructor
    · intro ls hls; have := hl1.1; simpa [hns, hls] using this
    · intro ls hls; have := hl2.1; simpa [hns, hls] using this
  · intro h
    apply mapM_ok_of_forall
    rintro ⟨f, spec⟩ hmem
    have key : ((spec.normalizations.getD {}).loadings.getD []).length ≤ d.nPeriods ∧
        ((spec.normalizations.getD {}).intercepts.getD []).length ≤ d.nPeriods := by
      cases hns : spec.normalizations with
      | none => simp
      | some ns =>
        obtain ⟨h1, h2⟩ := h f spec ns _ hmem hns hn
        constructor
        · cases hl : ns.loadings with
          | none => simp [hl]
          | some ls => simpa [hl] using h1 ls hl
        · cases hl : ns.intercepts with
          | none => simp [hl]
          | some ls => simpa [hl] using h2 ls hl
    exact ⟨_, py_bind_ok.mpr ⟨_, fillList_ok.mpr ⟨key.1, rfl⟩, py_bind_ok.mpr ⟨_, fillList_ok.mpr ⟨key.2, rfl⟩, rfl⟩⟩⟩

section
variable [OfScientific α] [Neg α] [Zero α] [One α] [OfNat α 2] [DecidableEq α]

/-- **C02.** process_model accepts a specification exactly if it has factors and an
estimation_options section, is consistent (periods, stagemap, normalizations), all transition
functions exist, and no list of normalizations is longer than the number of periods. -/
theorem C02_accepts_iff (m : ModelDict α) :
    (∃ pm, processModel m = .ok pm) ↔
      m.factors ≠ [] ∧ m.estimationOptions.isSome ∧ Consistent m ∧
      (∀ f spec, (f, spec) ∈ m.factors → ValidTransition spec.transition) ∧ NormListsFit m := by
  constructor
  · rintro ⟨pm, h⟩
    rw [processModel_ok_iff] at h
    obtain ⟨hd, hc, ht, _, _, _, _, hno⟩ := h
    have h0 := getDimensions_ok_iff.mp ⟨_, hd⟩
    obtain ⟨o, n, _, hn, he⟩ := getDimensions_ok hd
    have hn : IsNPeriods m pm.dimensions.nPeriods := by rw [he]; exact hn
    exact ⟨h0.1, h0.2, (checkModel_ok_iff hn).mp hc, getTransitionInfo_ok_iff.mp ⟨_, ht⟩,
      (processNormalizations_ok_iff hn).mp ⟨_, hno⟩⟩
  · rintro ⟨h1, h2, h3, h4, h5⟩
    obtain ⟨d, hd⟩ := getDimensions_ok_iff.mpr ⟨h1, h2⟩
    obtain ⟨o, n, _, hn, he⟩ := getDimensions_ok hd
    have hn : IsNPeriods m d.nPeriods := by rw [he]; exact hn
    have hc := (checkModel_ok_iff hn).mpr h3
    obtain ⟨ti, ht⟩ := (getTransitionInfo_ok_iff (l := getLabels m d)).mpr h4
    obtain ⟨nm, hnm⟩ := (processNormalizations_ok_iff hn).mpr h5
    have hu := getUpdateInfo_ok (l := { getLabels m d with
        transitionNames := ti.functionNames.map Prod.snd }) (a := processAnchoring m) hn
    exact ⟨{ dimensions := d, labels := _, anchoring := _, estimationOptions := _,
             transitionInfo := ti, updateInfo := _, normalizations := nm },
      processModel_ok_iff.mpr ⟨hd, hc, ht, rfl, rfl, rfl, hu, hnm⟩⟩

/-- Non-vacuity of C02: an accepted model and a rejected one. -/
example : ∃ pm, processModel Ex.model2 = .ok pm := by
  have h : (processModel Ex.model2).toBool = true := by decide +kernel
  cases hp : processModel Ex.model2 with
  | error e => rw [hp] at h; cases h
  | ok pm => exact ⟨pm, rfl⟩
example : processModel { Ex.model2 with stagemap := some [0, 2, 1] } = .error .valueError := by
  decide +kernel

omit [OfScientific α] [Neg α] [Zero α] [One α] [OfNat α 2] [DecidableEq α] in
theorem checkPresent_no_error {norm : List (Dict α)} {ms : List (List String)}
    (h : norm.length ≤ ms.length) : ∃ r, checkNormalizedVariablesArePresent norm ms = .ok r := by
  unfold checkNormalizedVariablesArePresent
  obtain ⟨ys, hys⟩ := mapM_ok_of_forall (f := fun x : Dict α × Nat =>
    x.1.mapM (fun y : String × α => (do
      let meas ← pyIndex ms x.2
      pure (if meas.contains y.1 then [] else ["not a measurement: " ++ y.1]) : Py _)))
    (xs := norm.zipIdx) (by
      rintro ⟨d, t⟩ hdt
      rw [List.mem_zipIdx_iff_getElem?] at hdt
      apply mapM_ok_of_forall
      rintro ⟨v, x⟩ _
      have : t < norm.length := (List.getElem?_eq_some_iff.mp hdt).1
      refine ⟨_, py_bind_ok.mpr ⟨ms[t]'(by omega), ?_, rfl⟩⟩
      simp [pyIndex, List.getElem?_eq_getElem (show t < ms.length by omega)])
  exact ⟨_, py_bind_ok.mpr ⟨ys, hys, rfl⟩⟩

omit [OfScientific α] [Neg α] [One α] [OfNat α 2] in
theorem checkNormalizations_no_error {m : ModelDict α} (h : NormListsWithinMeasurements m) :
    ∃ r, checkNormalizations m = .ok r := by
  unfold checkNormalizations
  obtain ⟨ys, hys⟩ := mapM_ok_of_forall (f := fun x : String × FactorSpec α => (do
    let norminfo := x.2.normalizations.getD {}
    let load := norminfo.loadings.getD []
    let r1 ← checkNormalizedVariablesArePresent load x.2.measurements
    let r2 := checkLoadingsNotZero load
    let inter := norminfo.intercepts.getD []
    let r3 ← checkNormalizedVariablesArePresent inter x.2.measurements
    pure (r1 ++ r2 ++ r3) : Py _)) (xs := m.factors) (by
      rintro ⟨f, spec⟩ hmem
      have key : ((spec.normalizations.getD {}).loadings.getD []).length ≤ spec.measurements.length ∧
        ((spec.normalizations.getD {}).intercepts.getD []).length ≤ spec.measurements.length := by
        cases hns : spec.normalizations with
        | none => simp
        | some ns =>
          obtain ⟨h1, h2⟩ := h f spec ns hmem hns
          constructor
          · cases hl : ns.loadings with
            | none => simp [hl]
            | some ls => simpa [hl] using h1 ls hl
          · cases hl : ns.intercepts with
            | none => simp [hl]
            | some ls => simpa [hl] using h2 ls hl
      obtain ⟨r1, hr1⟩ := checkPresent_no_error key.1
      obtain ⟨r3, hr3⟩ := checkPresent_no_error key.2
      exact ⟨_, py_bind_ok.mpr ⟨r1, hr1, py_bind_ok.mpr ⟨r3, hr3, rfl⟩⟩⟩)
  exact ⟨_, py_bind_ok.mpr ⟨ys, hys, rfl⟩⟩

/-- **C61 (partial).** If no normalization list is longer than the measurement list of its factor,
process_model raises a ValueError exactly if the specification is inconsistent.
Missing for the full statement: longer normalization lists, see the counterexample below. -/
theorem C61_value_error_iff_partial (m : ModelDict α) (h1 : m.factors ≠ [])
    (h2 : m.estimationOptions.isSome) (h3 : NormListsWithinMeasurements m) :
    processModel m = .error .valueError ↔ ¬ Consistent m := by
  obtain ⟨d, hd⟩ := getDimensions_ok_iff.mpr ⟨h1, h2⟩
  obtain ⟨o, n, _, hn, he⟩ := getDimensions_ok hd
  have hn : IsNPeriods m d.nPeriods := by rw [he]; exact hn
  rw [← checkModel_ok_iff hn]
  have hcm : checkModel m (getLabels m d) d = .ok () ∨ checkModel m (getLabels m d) d = .error .valueError := by
    obtain ⟨r, hr⟩ := checkNormalizations_no_error h3
    unfold checkModel
    simp only [hr, bind, Except.bind]
    split
    · right; rfl
    · left; rfl
  unfold processModel
  rcases hcm with hc | hc
  · simp only [hd, hc, bind, Except.bind, not_true, iff_false]
    intro hv
    cases ht : getTransitionInfo m (getLabels m d) with
    | error e =>
      simp only [ht] at hv
      cases hv
      unfold getTransitionInfo at ht
      rcases py_bind_error.mp ht with hm | ⟨_, _, hm⟩
      · obtain ⟨x, _, hx⟩ := mapM_error hm
        rcases py_bind_error.mp hx with hx | ⟨_, _, hx⟩
        · have := transitionNamesOf_error _ _ hx
          cases this
        · cases hx
      · cases hm
    | ok ti =>
      simp only [ht] at hv
      have hu := getUpdateInfo_ok (l := { getLabels m d with
        transitionNames := ti.functionNames.map Prod.snd }) (a := processAnchoring m) hn
      simp only [hu] at hv
      cases hno : processNormalizations m d with
      | ok nm => simp only [hno] at hv; cases hv
      | error e =>
        simp only [hno] at hv
        cases hv
        unfold processNormalizations at hno
        obtain ⟨x, _, hx⟩ := mapM_error hno
        cases h4 : fillList ((x.2.normalizations.getD {}).loadings.getD []) [] d.nPeriods with
        | error e =>
          simp only [h4, bind, Except.bind] at hx
          cases hx
          unfold fillList at h4
          split at h4 <;> cases h4
        | ok r =>
          cases h5 : fillList ((x.2.normalizations.getD {}).intercepts.getD []) [] d.nPeriods with
          | error e =>
            simp only [h4, h5, bind, Except.bind] at hx
            cases hx
            unfold fillList at h5
            split at h5 <;> cases h5
          | ok r' => simp only [h4, h5, bind, Except.bind] at hx; cases hx
  · simp only [hd, hc, bind, Except.bind]
    simp

end

/-- A model whose normalization of fac3 names a period without measurement list. -/
def Ex.longNorm : ModelDict Rat where
  factors := [
    ("a", { measurements := [["y1"], ["y1"]], transition := .named "linear" }),
    ("b", { measurements := [["y2"]], transition := .named "linear"
            normalizations := some { loadings := some [[("y2", 1)], [("y2", 1)]] } })]
  estimationOptions := some {}

/-- C61, negative part: an inconsistent specification (y2 is normalized in a period in which it is
not a measurement) that does not lead to the ValueError of the model check but to an IndexError. -/
theorem C61_value_error_counterexample :
    processModel Ex.longNorm = .error .indexError ∧ ¬ Consistent Ex.longNorm := by
  refine ⟨by decide +kernel, ?_⟩
  intro h
  have := h.loadings "b" _ 1 "y2" 1 (List.mem_cons_of_mem _ (List.mem_singleton.mpr rfl))
    ⟨_, _, _, rfl, rfl, rfl, by simp⟩
  simp at this

/-- Non-vacuity of C61 (partial). -/
example : Ex.model2.factors ≠ [] ∧ Ex.model2.estimationOptions.isSome ∧
    NormListsWithinMeasurements Ex.model2 := by
  refine ⟨by simp [Ex.model2], rfl, ?_⟩
  intro f spec ns hmem hns
  simp only [Ex.model2, List.mem_cons, Prod.mk.injEq, List.not_mem_nil, or_false] at hmem
  rcases hmem with ⟨rfl, rfl⟩ | ⟨rfl, rfl⟩ | ⟨rfl, rfl⟩
  · simp at hns; subst hns; simp
  · simp at hns; subst hns; simp
  · simp at hns

/-- C62, negative: the documentation says that all sections but "factors" are optional. A model
without "estimation_options" is rejected with a KeyError although it is otherwise valid. -/
theorem C62_estimation_options_not_optional :
    processModel { Ex.model2 with estimationOptions := none } = .error .keyError ∧
    (∃ pm, processModel { Ex.model2 with estimationOptions := some {} } = .ok pm) := by
  refine ⟨by decide +kernel, ?_⟩
  have h : (processModel { Ex.model2 with estimationOptions := some {} }).toBool = true := by decide +kernel
  cases hp : processModel { Ex.model2 with estimationOptions := some {} } with
  | error e => rw [hp] at h; cases h
  | ok pm => exact ⟨pm, rfl⟩

section
variable [OfScientific α] [Neg α] [Zero α] [One α] [OfNat α 2] [DecidableEq α]

/-- C62, positive part: the sections observed_factors, controls, stagemap and anchoring are
optional: leaving them out keeps an accepted model accepted. -/
theorem C62_optional_sections_partial (m : ModelDict α) (h : ∃ pm, processModel m = .ok pm) :
    (∃ pm, processModel { m with observedFactors := none } = .ok pm) ∧
    (∃ pm, processModel { m with controls := none } = .ok pm) ∧
    (∃ pm, processModel { m with stagemap := none } = .ok pm) ∧
    (∃ pm, processModel { m with anchoring := none } = .ok pm) := by
  rw [C02_accepts_iff] at h
  obtain ⟨h1, h2, h3, h4, h5⟩ := h
  simp only [C02_accepts_iff]
  refine ⟨⟨h1, h2, ⟨h3.1, h3.2, h3.3, h3.4⟩, h4, h5⟩, ⟨h1, h2, ⟨h3.1, h3.2, h3.3, h3.4⟩, h4, h5⟩,
    ⟨h1, h2, ⟨h3.1, ?_, h3.3, h3.4⟩, h4, h5⟩, ⟨h1, h2, ⟨h3.1, h3.2, h3.3, h3.4⟩, h4, h5⟩⟩
  intro n sm _ hs; cases hs

/-! ### C03 -/

theorem stagemap_step_mono {sm : List Int}
    (hs : ∀ i a b, sm[i]? = some a → sm[i + 1]? = some b → b = a ∨ b = a + 1)
    (i k : Nat) (a b : Int) (ha : sm[i]? = some a) (hb : sm[i + k]? = some b) : a ≤ b := by
  induction k generalizing b with
  | zero =>
    rw [Nat.add_zero, ha] at hb; cases hb; exact le_refl _
  | succ k ih =>
    have hl : i + (k + 1) < sm.length := (List.getElem?_eq_some_iff.mp hb).1
    have hc : sm[i + k]? = some (sm[i + k]'(by omega)) := List.getElem?_eq_getElem (by omega)
    have h1 := ih _ hc
    have h2 := hs (i + k) _ b hc (by rw [Nat.add_assoc]; exact hb)
    omega

theorem effective_stagemap_valid {m : ModelDict α} {pm : Processed α} (h : processModel m = .ok pm) :
    ValidStagemap pm.labels.stagemap pm.dimensions.nPeriods := by
  rw [processModel_ok_iff] at h
  obtain ⟨hd, hc, _, hl, _, _, _, _⟩ := h
  obtain ⟨o, n, _, hn, he⟩ := getDimensions_ok hd
  have hn : IsNPeriods m pm.dimensions.nPeriods := by rw [he]; exact hn
  rw [checkModel_ok_iff hn] at hc
  rw [hl]
  cases hs : m.stagemap with
  | none =>
    have : (getLabels m pm.dimensions).stagemap = (List.range (pm.dimensions.nPeriods - 1)).map Int.ofNat := by
      simp [getLabels, hs]
    simp only [this]
    exact validStagemap_default _ (hc.periods _ hn)
  | some sm =>
    have : (getLabels m pm.dimensions).stagemap = sm := by simp [getLabels, hs]
    simp only [this]
    exact hc.stagemap _ _ hn hs

/-- **C03.** The stagemap of an accepted model has one entry per transition, is non-decreasing,
every stage owns a contiguous block of transitions, and the stages are exactly 0, …, S-1 in this
order (so every stage is used and the first one is 0). -/
theorem C03_stages_are_blocks {m : ModelDict α} {pm : Processed α} (h : processModel m = .ok pm) :
    IsNPeriods m (pm.labels.stagemap.length + 1) ∧
    (∀ (i j : Nat) a b, i ≤ j → pm.labels.stagemap[i]? = some a → pm.labels.stagemap[j]? = some b → a ≤ b) ∧
    (∀ (i j k : Nat) a b, i ≤ j → j ≤ k → pm.labels.stagemap[i]? = some a → pm.labels.stagemap[j]? = some b →
      pm.labels.stagemap[k]? = some a → b = a) ∧
    (∃ S : Nat, pm.labels.stages = (List.range S).map Int.ofNat ∧
      ∀ s : Nat, s < S ↔ ∃ i : Nat, pm.labels.stagemap[i]? = some (s : Int)) ∧
    (∀ a, pm.labels.stagemap[0]? = some a → a = 0) := by
  have hv := effective_stagemap_valid h
  have hst : pm.labels.stages = npUnique pm.labels.stagemap := by
    rw [processModel_ok_iff] at h
    obtain ⟨_, _, _, hl, _⟩ := h
    rw [hl]; rfl
  have hmono : ∀ (i j : Nat) a b, i ≤ j → pm.labels.stagemap[i]? = some a → pm.labels.stagemap[j]? = some b → a ≤ b := by
    intro i j a b hij ha hb
    exact stagemap_step_mono hv.steps i (j - i) a b ha (by rw [show i + (j - i) = j by omega]; exact hb)
  obtain ⟨S, hS⟩ := hv.stages
  refine ⟨?_, hmono, ?_, ⟨S, ?_, ?_⟩, ?_⟩
  · rw [hv.length]
    rw [processModel_ok_iff] at h
    obtain ⟨o, n, _, hn, he⟩ := getDimensions_ok h.1
    rw [he]; exact hn
  · intro i j k a b hij hjk ha hb hc
    have h1 := hmono i j a b hij ha hb
    have h2 := hmono j k b a hjk hb hc
    omega
  · rw [hst]
    apply sorted_ext (sorted_npUnique _) (sorted_range_int S)
    intro x
    rw [mem_npUnique, hS]
    simp only [List.mem_map, List.mem_range]
    constructor
    · rintro ⟨h1, h2⟩
      exact ⟨x.toNat, by omega, by simp [Int.toNat_of_nonneg h1]⟩
    · rintro ⟨k, hk, rfl⟩
      exact ⟨Int.natCast_nonneg k, by simpa using hk⟩
  · intro s
    rw [← List.mem_iff_getElem?, hS]
    constructor
    · intro h; exact ⟨by omega, by omega⟩
    · rintro ⟨_, h⟩; omega
  · intro a ha
    have h1 := (hS a).mp (List.mem_of_getElem? ha)
    have h0 : (0 : Int) ∈ pm.labels.stagemap := (hS 0).mpr ⟨le_refl _, by omega⟩
    obtain ⟨j, hj⟩ := List.mem_iff_getElem?.mp h0
    have := hmono 0 j a 0 (by omega) ha hj
    omega

/-- Non-vacuity of C03: stagemap [0, 0, 1] of the example. -/
example : (processModel Ex.model2).map (fun p => p.labels.stagemap) = .ok [0, 0, 1] := by decide +kernel

/-! ### C04 -/

/-- **C04.** User options win over defaults, unset options have the documented defaults, and the
bounds distance is zero if robust_bounds is False; the anchoring flags default to False. -/
theorem C04_options {m : ModelDict α} {pm : Processed α} (h : processModel m = .ok pm) :
    ∃ u, m.estimationOptions = some u ∧
    (∀ x, u.sigmaPointsScale = some x → pm.estimationOptions.sigmaPointsScale = x) ∧
    (u.sigmaPointsScale = none → pm.estimationOptions.sigmaPointsScale = 2) ∧
    (u.robustBounds = some false → pm.estimationOptions.boundsDistance = 0) ∧
    (∀ x, u.robustBounds ≠ some false → u.boundsDistance = some x →
      pm.estimationOptions.boundsDistance = x) ∧
    (u.robustBounds ≠ some false → u.boundsDistance = none →
      pm.estimationOptions.boundsDistance = 1e-3) ∧
    (∀ x, u.clippingLowerBound = some x → pm.estimationOptions.clippingLowerBound = x) ∧
    (u.clippingLowerBound = none → pm.estimationOptions.clippingLowerBound = some (-1e250)) ∧
    (∀ x, u.clippingUpperBound = some x → pm.estimationOptions.clippingUpperBound = x) ∧
    (u.clippingUpperBound = none → pm.estimationOptions.clippingUpperBound = none) ∧
    (∀ x, u.clippingLowerHardness = some x → pm.estimationOptions.clippingLowerHardness = x) ∧
    (u.clippingLowerHardness = none → pm.estimationOptions.clippingLowerHardness = 1) ∧
    (∀ x, u.clippingUpperHardness = some x → pm.estimationOptions.clippingUpperHardness = x) ∧
    (u.clippingUpperHardness = none → pm.estimationOptions.clippingUpperHardness = 1) ∧
    (∀ k, u.nMixtures = some k → pm.dimensions.nMixtures = k) ∧
    (u.nMixtures = none → pm.dimensions.nMixtures = 1) ∧
    (pm.anchoring.anchoring = true ↔ m.anchoring.isSome) ∧
    (pm.anchoring.freeConstant = true ↔ ∃ a, m.anchoring = some a ∧ a.freeConstant = some true) ∧
    (pm.anchoring.freeControls = true ↔ ∃ a, m.anchoring = some a ∧ a.freeControls = some true) ∧
    (pm.anchoring.freeLoadings = true ↔ ∃ a, m.anchoring = some a ∧ a.freeLoadings = some true) ∧
    (pm.anchoring.ignoreConstant = true ↔ ∃ a, m.anchoring = some a ∧ a.ignoreConstant = some true) := by
  rw [processModel_ok_iff] at h
  obtain ⟨hd, _, _, _, ha, he, _, _⟩ := h
  obtain ⟨o, n, ho, _, hdim⟩ := getDimensions_ok hd
  refine ⟨o, ho, ?_⟩
  rw [he, hdim, ha]
  simp only [processEstimationOptions, ho, Option.getD_some]
  refine ⟨?_, ?_, ?_, ?_, ?_, ?_, ?_, ?_, ?_, ?_, ?_, ?_, ?_, ?_, ?_, ?_, ?_, ?_, ?_, ?_⟩
  · intro x h; simp [h]
  · intro h; simp [h]
  · intro h; simp [h]
  · intro x h h'
    cases hr : o.robustBounds with
    | none => simp [h']
    | some b => cases b <;> simp_all
  · intro h h'
    cases hr : o.robustBounds with
    | none => simp [h']
    | some b => cases b <;> simp_all
  · intro x h; simp [h]
  · intro h; simp [h]
  · intro x h; simp [h]
  · intro h; simp [h]
  · intro x h; simp [h]
  · intro h; simp [h]
  · intro x h; simp [h]
  · intro h; simp [h]
  · intro k h; simp [h]
  · intro h; simp [h]
  all_goals
    cases hm : m.anchoring with
    | none => simp [processAnchoring, hm]
    | some a =>
      simp [processAnchoring, hm]
      try (rename_i hh; clear hh)
      try (cases a.freeConstant <;> simp)
      try (cases a.freeControls <;> simp)
      try (cases a.freeLoadings <;> simp)
      try (cases a.ignoreConstant <;> simp)

/-- Non-vacuity of C04. -/
example : (processModel { Ex.model2 with
    estimationOptions := some { robustBounds := some false, boundsDistance := some 5 } }).map
    (fun p => p.estimationOptions.boundsDistance) = .ok 0 := by decide +kernel

end
end Skill
