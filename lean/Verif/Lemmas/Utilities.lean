import Verif.Model.Utilities
import Verif.Props.CheckModel
import Verif.Props.ParamsIndex
import Mathlib.Order.Hom.Basic
import Mathlib.Data.List.NodupEquivFin
/-
Lemmas for Props/Utilities.lean
-/
namespace Skill
open Spec
variable {α : Type}

theorem shorten_nat {β : Type _} (xs : List β) (n : Nat) : shortenIfNecessary xs (n : Int) = xs.take n := by
  unfold shortenIfNecessary
  split
  · rw [if_pos (Int.natCast_nonneg n), Int.toNat_natCast]
  · rename_i h
    exact (List.take_of_length_le (by omega)).symm

theorem shorten_pred {β : Type _} (xs : List β) {n : Nat} (hn : 1 ≤ n) : shortenIfNecessary xs ((n : Int) - 1) = xs.take (n - 1) := by
  have : (n : Int) - 1 = ((n - 1 : Nat) : Int) := by omega
  rw [this, shorten_nat]

theorem mem_removeFromDict {β : Type _} {d : Dict β} {r : List String} {kv : String × β} :
    kv ∈ removeFromDict d r ↔ kv ∈ d ∧ kv.1 ∉ r := by
  unfold removeFromDict
  rw [List.mem_filter, decide_eq_true_iff]

theorem mem_removeFromList {l r : List String} {x : String} : x ∈ removeFromList l r ↔ x ∈ l ∧ x ∉ r := by
  unfold removeFromList
  rw [List.mem_filter, decide_eq_true_iff]

/-- A model with at least one factor has a number of periods. -/
theorem exists_isNPeriods {m : ModelDict α} (h : m.factors ≠ []) : ∃ n, IsNPeriods m n := by
  have : (m.factors.map (fun fs => fs.2.measurements.length)) ≠ [] := by simpa using h
  obtain ⟨x, xs, hx⟩ := List.exists_cons_of_ne_nil this
  obtain ⟨h1, h2⟩ := pyMax_ok (xs := m.factors.map (fun fs => fs.2.measurements.length)) (n := xs.foldl max x) (by rw [hx]; rfl)
  rw [List.mem_map] at h1
  obtain ⟨⟨f, spec⟩, hm, hl⟩ := h1
  exact ⟨_, ⟨f, spec, hm, hl⟩, fun g s hg => h2 _ (List.mem_map.mpr ⟨(g, s), hg, rfl⟩)⟩

theorem isPeriod_iff_exists {m : ModelDict α} {t : Nat} : IsPeriod m t ↔ ∃ f spec, (f, spec) ∈ m.factors ∧ t < spec.measurements.length := by
  constructor
  · rintro ⟨n, ⟨⟨f, spec, hm, rfl⟩, _⟩, ht⟩
    exact ⟨f, spec, hm, ht⟩
  · rintro ⟨f, spec, hm, ht⟩
    obtain ⟨n, hn⟩ := exists_isNPeriods (List.ne_nil_of_mem hm)
    exact ⟨n, hn, lt_of_lt_of_le ht (hn.2 f spec hm)⟩

/-- What makes the parameters of `out` parameters of `m`. -/
structure Smaller (out m : ModelDict α) : Prop where
  measures : ∀ t v f, Measures out t v f → Measures m t v f
  anchored : ∀ f o, AnchoredIn out f o → AnchoredIn m f o
  periods : ∀ t, IsPeriod out t → IsPeriod m t
  controls : ∀ c ∈ out.controls.getD [], c ∈ m.controls.getD []
  options : out.estimationOptions = m.estimationOptions
  factors : (out.factors.map Prod.fst).Sublist (m.factors.map Prod.fst)
  observed : out.observedFactors = m.observedFactors
  transition : ∀ f spec, (f, spec) ∈ out.factors → ∃ spec', (f, spec') ∈ m.factors ∧
    ∀ fs name, HasTransitionParam fs spec.transition name → HasTransitionParam fs spec'.transition name

theorem Smaller.trans {a b c : ModelDict α} (h : Smaller a b) (h' : Smaller b c) : Smaller a c where
  measures := fun t v f x => h'.measures t v f (h.measures t v f x)
  anchored := fun f o x => h'.anchored f o (h.anchored f o x)
  periods := fun t x => h'.periods t (h.periods t x)
  controls := fun x hx => h'.controls x (h.controls x hx)
  options := h.options.trans h'.options
  factors := h.factors.trans h'.factors
  observed := h.observed.trans h'.observed
  transition := by
    intro f spec hf
    obtain ⟨s1, h1, h2⟩ := h.transition f spec hf
    obtain ⟨s2, h3, h4⟩ := h'.transition f s1 h1
    exact ⟨s2, h3, fun fs name hn => h4 fs name (h2 fs name hn)⟩

theorem before_of_sublist {l l' : List String} (h : l.Sublist l') {a b : String} (hb : Before l a b) : Before l' a b := by
  obtain ⟨i, j, hij, hi, hj⟩ := hb
  obtain ⟨f, hf⟩ := List.sublist_iff_exists_orderEmbedding_getElem?_eq.mp h
  exact ⟨f i, f j, f.lt_iff_lt.mpr hij, by rw [← hf]; exact hi, by rw [← hf]; exact hj⟩

theorem hasTransitionParam_mono {fs fs' : List String} (h : fs.Sublist fs') {spec : TransSpec} {name : String}
    (hp : HasTransitionParam fs spec name) : HasTransitionParam fs' spec name := by
  cases spec with
  | custom fn ps => exact hp
  | named fn =>
    have hm : ∀ x, x ∈ fs → x ∈ fs' := fun x hx => h.mem hx
    simp only [HasTransitionParam] at hp ⊢
    rcases hp with ⟨h1, h2⟩ | ⟨h1, h2⟩ | ⟨h1, h2⟩ | ⟨h1, h2⟩ | ⟨h1, h2⟩
    · exact Or.inl ⟨h1, h2.imp (hm _) id⟩
    · refine Or.inr (Or.inl ⟨h1, ?_⟩)
      rcases h2 with h2 | ⟨a, ha, e⟩ | ⟨a, b, hb, e⟩ | h2
      · exact Or.inl (hm _ h2)
      · exact Or.inr (Or.inl ⟨a, hm _ ha, e⟩)
      · exact Or.inr (Or.inr (Or.inl ⟨a, b, before_of_sublist h hb, e⟩))
      · exact Or.inr (Or.inr (Or.inr h2))
    · exact Or.inr (Or.inr (Or.inl ⟨h1, h2.imp (hm _) id⟩))
    · refine Or.inr (Or.inr (Or.inr (Or.inl ⟨h1, ?_⟩)))
      rcases h2 with h2 | ⟨a, ha, e⟩ | h2
      · exact Or.inl (hm _ h2)
      · exact Or.inr (Or.inl ⟨a, hm _ ha, e⟩)
      · exact Or.inr (Or.inr h2)
    · refine Or.inr (Or.inr (Or.inr (Or.inr ⟨h1, ?_⟩)))
      rcases h2 with h2 | ⟨a, ha, e⟩ | h2
      · exact Or.inl (hm _ h2)
      · exact Or.inr (Or.inl ⟨a, hm _ ha, e⟩)
      · exact Or.inr (Or.inr h2)

theorem Smaller.isLatent {out m : ModelDict α} (h : Smaller out m) {f : String} (hf : IsLatent out f) : IsLatent m f := by
  obtain ⟨spec, hs⟩ := hf
  obtain ⟨s', h1, _⟩ := h.transition f spec hs
  exact ⟨s', h1⟩

theorem Smaller.anchors {out m : ModelDict α} (h : Smaller out m) {v f : String} (hf : Anchors out v f) : Anchors m v f := by
  obtain ⟨o, h1, h2⟩ := hf
  exact ⟨o, h.anchored f o h1, h2⟩

theorem Smaller.isUpdate {out m : ModelDict α} (h : Smaller out m) {t : Nat} {v : String} (hu : IsUpdate out t v) : IsUpdate m t v := by
  rcases hu with ⟨f, hf⟩ | ⟨hp, f, hf⟩
  · exact Or.inl ⟨f, h.measures t v f hf⟩
  · exact Or.inr ⟨h.periods t hp, f, h.anchors hf⟩

theorem Smaller.allFactors {out m : ModelDict α} (h : Smaller out m) : (Spec.allFactors out).Sublist (Spec.allFactors m) := by
  unfold Spec.allFactors
  rw [h.observed]
  exact h.factors.append (List.Sublist.refl _)

theorem Smaller.hasNMixtures {out m : ModelDict α} (h : Smaller out m) {k : Nat} (hk : HasNMixtures out k) : HasNMixtures m k := by
  unfold HasNMixtures at *
  rwa [← h.options]

/-- Every parameter of the smaller model is one of the larger model. -/
theorem Smaller.isParam {out m : ModelDict α} (h : Smaller out m) {l : Loc} (hl : IsParam out l) : IsParam m l := by
  cases hl with
  | control h1 h2 => exact .control (h.isUpdate h1) (h2.imp id (h.controls _))
  | loading h1 h2 => exact .loading (h.isLatent h1) (h2.imp (h.measures _ _ _) (fun ⟨a, b⟩ => ⟨h.periods _ a, h.anchors b⟩))
  | measSd h1 => exact .measSd (h.isUpdate h1)
  | shockSd h1 h2 => exact .shockSd (h.periods _ h1) (h.isLatent h2)
  | initialState h1 h2 h3 => exact .initialState (h.hasNMixtures h1) h2 (h.isLatent h3)
  | mixtureWeight h1 h2 => exact .mixtureWeight (h.hasNMixtures h1) h2
  | cholcov h1 h2 h3 h4 h5 =>
    obtain ⟨f, hf⟩ := List.sublist_iff_exists_orderEmbedding_getElem?_eq.mp h.factors
    exact .cholcov (h.hasNMixtures h1) h2 (f.le_iff_le.mpr h3) (by rw [← hf]; exact h4) (by rw [← hf]; exact h5)
  | transition h1 h2 h3 =>
    obtain ⟨s', h4, h5⟩ := h.transition _ _ h2
    exact .transition (h.periods _ h1) h4 (h5 _ _ (hasTransitionParam_mono h.allFactors h3))

/-! ### the edits make models smaller -/

theorem getElem?_take_some {β : Type _} {xs : List β} {n i : Nat} {x : β} : (xs.take n)[i]? = some x ↔ i < n ∧ xs[i]? = some x := by
  rw [List.getElem?_take]
  split <;> simp_all

theorem mem_reduceNPeriods {m : ModelDict α} {n : Nat} {f : String} {spec : FactorSpec α} :
    (f, spec) ∈ (reduceNPeriods m n).factors ↔ ∃ s, (f, s) ∈ m.factors ∧ spec = reduceFactorPeriods n s := by
  show (f, spec) ∈ m.factors.map (fun fs => (fs.1, reduceFactorPeriods n fs.2)) ↔ _
  rw [List.mem_map]
  constructor
  · rintro ⟨⟨g, s⟩, hg, e⟩
    cases e
    exact ⟨s, hg, rfl⟩
  · rintro ⟨s, hs, rfl⟩
    exact ⟨(f, s), hs, rfl⟩

theorem reduceFactor_measurements (n : Nat) (s : FactorSpec α) : (reduceFactorPeriods n s).measurements = s.measurements.take n :=
  shorten_nat _ _

theorem smaller_reduceNPeriods (m : ModelDict α) (n : Nat) : Smaller (reduceNPeriods m n) m where
  measures := by
    rintro t v f ⟨spec, hs, ms, h1, h2⟩
    obtain ⟨s, hs', rfl⟩ := mem_reduceNPeriods.mp hs
    rw [reduceFactor_measurements, getElem?_take_some] at h1
    exact ⟨s, hs', ms, h1.2, h2⟩
  anchored := fun f o h => h
  periods := by
    intro t h
    rw [isPeriod_iff_exists] at h ⊢
    obtain ⟨f, spec, hs, ht⟩ := h
    obtain ⟨s, hs', rfl⟩ := mem_reduceNPeriods.mp hs
    rw [reduceFactor_measurements, List.length_take] at ht
    exact ⟨f, s, hs', by omega⟩
  controls := fun c h => h
  options := rfl
  factors := by
    show ((m.factors.map (fun fs => (fs.1, reduceFactorPeriods n fs.2))).map Prod.fst).Sublist _
    rw [List.map_map]
    exact List.Sublist.refl _
  observed := rfl
  transition := by
    intro f spec hs
    obtain ⟨s, hs', rfl⟩ := mem_reduceNPeriods.mp hs
    exact ⟨s, hs', fun fs name h => h⟩

/-- The model without the factors, before periods are removed. -/
def dropFactors (fs : List String) (m : ModelDict α) (anchoring : Option AnchoringSpec) : ModelDict α :=
  { m with factors := removeFromDict m.factors fs, anchoring := anchoring }

theorem removeFactors_ok {fs : List String} {m out : ModelDict α} :
    removeFactors fs m = .ok out ↔ ∃ anchoring n, removeFromAnchoring m.anchoring fs = .ok anchoring ∧
      m.estimationOptions.isSome ∧ IsNPeriods (dropFactors fs m anchoring) n ∧ out = reduceNPeriods (dropFactors fs m anchoring) n := by
  unfold removeFactors
  rw [py_bind_ok]
  constructor
  · rintro ⟨a, h1, h2⟩
    rw [py_bind_ok] at h2
    obtain ⟨d, hd, h3⟩ := h2
    obtain ⟨o, n, ho, hn, he⟩ := getDimensions_ok hd
    refine ⟨a, d.nPeriods, h1, ?_, ?_, (py_pure_ok.mp h3).symm⟩
    · rw [show m.estimationOptions = some o from ho]; rfl
    · rw [he]; exact hn
  · rintro ⟨a, n, h1, h2, h3, rfl⟩
    refine ⟨a, h1, ?_⟩
    rw [py_bind_ok]
    have hne : (dropFactors fs m a).factors ≠ [] := by
      obtain ⟨⟨f, spec, hm, _⟩, _⟩ := h3
      exact List.ne_nil_of_mem hm
    obtain ⟨d, hd⟩ := getDimensions_ok_iff.mpr ⟨hne, h2⟩
    obtain ⟨o, n', ho, hn', he⟩ := getDimensions_ok hd
    refine ⟨d, hd, ?_⟩
    rw [py_pure_ok]
    have : d.nPeriods = n := by rw [he]; exact IsNPeriods.unique hn' h3
    rw [this]
    rfl

theorem removeFromAnchoring_ok {anchoring a' : Option AnchoringSpec} {fs : List String} (h : removeFromAnchoring anchoring fs = .ok a') :
    (anchoring = none ∧ a' = none) ∨ ∃ a os, anchoring = some a ∧ a.outcomes = some os ∧
      ((removeFromDict os fs = [] ∧ a' = none) ∨ (removeFromDict os fs ≠ [] ∧ a' = some { a with outcomes := some (removeFromDict os fs) })) := by
  unfold removeFromAnchoring at h
  cases anchoring with
  | none => exact Or.inl ⟨rfl, (Except.ok.inj h).symm⟩
  | some a =>
    right
    cases ho : a.outcomes with
    | none => simp only [ho] at h; cases h
    | some os =>
      simp only [ho] at h
      refine ⟨a, os, rfl, ho, ?_⟩
      split at h
      · rename_i he
        exact Or.inl ⟨List.isEmpty_iff.mp he, (Except.ok.inj h).symm⟩
      · rename_i he
        exact Or.inr ⟨fun h0 => he (List.isEmpty_iff.mpr h0), (Except.ok.inj h).symm⟩

theorem smaller_dropFactors {fs : List String} {m : ModelDict α} {a' : Option AnchoringSpec} (h : removeFromAnchoring m.anchoring fs = .ok a') :
    Smaller (dropFactors fs m a') m where
  measures := by
    rintro t v f ⟨spec, hs, ms, h1, h2⟩
    exact ⟨spec, (mem_removeFromDict.mp hs).1, ms, h1, h2⟩
  anchored := by
    rintro f o ⟨a, ha, os, ho, hm⟩
    change a' = some a at ha
    rcases removeFromAnchoring_ok h with ⟨_, rfl⟩ | ⟨b, os', hb, hos, ⟨_, rfl⟩ | ⟨_, rfl⟩⟩
    · cases ha
    · cases ha
    · cases ha
      cases ho
      exact ⟨b, hb, os', hos, (mem_removeFromDict.mp hm).1⟩
  periods := by
    intro t hp
    rw [isPeriod_iff_exists] at hp ⊢
    obtain ⟨f, spec, hs, ht⟩ := hp
    exact ⟨f, spec, (mem_removeFromDict.mp hs).1, ht⟩
  controls := fun c h => h
  options := rfl
  factors := (List.filter_sublist).map _
  observed := rfl
  transition := fun f spec hs => ⟨spec, (mem_removeFromDict.mp hs).1, fun _ _ h => h⟩

theorem smaller_removeFactors {fs : List String} {m out : ModelDict α} (h : removeFactors fs m = .ok out) : Smaller out m := by
  obtain ⟨a, n, h1, _, _, rfl⟩ := removeFactors_ok.mp h
  exact (smaller_reduceNPeriods _ n).trans (smaller_dropFactors h1)

theorem mem_removeMeasurements {ms : List String} {m : ModelDict α} {f : String} {spec : FactorSpec α} :
    (f, spec) ∈ (removeMeasurements ms m).factors ↔ ∃ s, (f, s) ∈ m.factors ∧ spec = removeFactorMeasurements ms s := by
  show (f, spec) ∈ m.factors.map (fun fs => (fs.1, removeFactorMeasurements ms fs.2)) ↔ _
  rw [List.mem_map]
  constructor
  · rintro ⟨⟨g, s⟩, hg, e⟩
    cases e
    exact ⟨s, hg, rfl⟩
  · rintro ⟨s, hs, rfl⟩
    exact ⟨(f, s), hs, rfl⟩

theorem smaller_removeMeasurements (ms : List String) (m : ModelDict α) : Smaller (removeMeasurements ms m) m where
  measures := by
    rintro t v f ⟨spec, hs, l, h1, h2⟩
    obtain ⟨s, hs', rfl⟩ := mem_removeMeasurements.mp hs
    change (s.measurements.map (fun l => removeFromList l ms))[t]? = some l at h1
    rw [List.getElem?_map, Option.map_eq_some_iff] at h1
    obtain ⟨l', hl', rfl⟩ := h1
    exact ⟨s, hs', l', hl', (mem_removeFromList.mp h2).1⟩
  anchored := fun f o h => h
  periods := by
    intro t h
    rw [isPeriod_iff_exists] at h ⊢
    obtain ⟨f, spec, hs, ht⟩ := h
    obtain ⟨s, hs', rfl⟩ := mem_removeMeasurements.mp hs
    exact ⟨f, s, hs', by simpa [removeFactorMeasurements] using ht⟩
  controls := fun c h => h
  options := rfl
  factors := by
    show ((m.factors.map (fun fs => (fs.1, removeFactorMeasurements ms fs.2))).map Prod.fst).Sublist _
    rw [List.map_map]
    exact List.Sublist.refl _
  observed := rfl
  transition := by
    intro f spec hs
    obtain ⟨s, hs', rfl⟩ := mem_removeMeasurements.mp hs
    exact ⟨s, hs', fun fs name h => h⟩

theorem removeControls_ok {cs : List String} {m out : ModelDict α} (h : removeControls cs m = .ok out) :
    ∃ c, m.controls = some c ∧ out = { m with controls := if removeFromList c cs = [] then none else some (removeFromList c cs) } := by
  unfold removeControls at h
  cases hc : m.controls with
  | none => simp only [hc] at h; cases h
  | some c => simp only [hc] at h; exact ⟨c, rfl, (Except.ok.inj h).symm⟩

theorem controls_getD_reduced (c cs : List String) :
    (if removeFromList c cs = [] then none else some (removeFromList c cs)).getD [] = removeFromList c cs := by
  split
  · rename_i h; rw [h]; rfl
  · rfl

theorem smaller_removeControls {cs : List String} {m out : ModelDict α} (h : removeControls cs m = .ok out) : Smaller out m := by
  obtain ⟨c, hc, rfl⟩ := removeControls_ok h
  refine ⟨fun _ _ _ h => h, fun _ _ h => h, fun _ h => h, ?_, rfl, List.Sublist.refl _, rfl, fun f spec h => ⟨spec, h, fun _ _ h => h⟩⟩
  intro x hx
  rw [controls_getD_reduced] at hx
  rw [hc]
  exact (mem_removeFromList.mp hx).1

theorem mem_switchTransition {old new : String} {m : ModelDict α} {f : String} {spec : FactorSpec α} :
    (f, spec) ∈ (switchTransition old new m).factors ↔ ∃ s, (f, s) ∈ m.factors ∧
      spec = { s with transition := if s.transition = .named old then .named new else s.transition } := by
  show (f, spec) ∈ m.factors.map (fun fs => (fs.1, { fs.2 with transition := if fs.2.transition = .named old then .named new else fs.2.transition })) ↔ _
  rw [List.mem_map]
  constructor
  · rintro ⟨⟨g, s⟩, hg, e⟩
    cases e
    exact ⟨s, hg, rfl⟩
  · rintro ⟨s, hs, rfl⟩
    exact ⟨(f, s), hs, rfl⟩

/-- Switching from one built-in to another one with fewer parameters. -/
theorem smaller_switch {old new : String} (m : ModelDict α)
    (hp : ∀ fs name, HasTransitionParam fs (.named new) name → HasTransitionParam fs (.named old) name) : Smaller (switchTransition old new m) m where
  measures := by
    rintro t v f ⟨spec, hs, l, h1, h2⟩
    obtain ⟨s, hs', rfl⟩ := mem_switchTransition.mp hs
    exact ⟨s, hs', l, h1, h2⟩
  anchored := fun f o h => h
  periods := by
    intro t h
    rw [isPeriod_iff_exists] at h ⊢
    obtain ⟨f, spec, hs, ht⟩ := h
    obtain ⟨s, hs', rfl⟩ := mem_switchTransition.mp hs
    exact ⟨f, s, hs', ht⟩
  controls := fun c h => h
  options := rfl
  factors := by
    show ((m.factors.map _).map Prod.fst).Sublist _
    rw [List.map_map]
    exact List.Sublist.refl _
  observed := rfl
  transition := by
    intro f spec hs
    obtain ⟨s, hs', rfl⟩ := mem_switchTransition.mp hs
    refine ⟨s, hs', fun fs name h => ?_⟩
    simp only at h
    split at h
    · rename_i he
      rw [he]
      exact hp fs name h
    · exact h

theorem linear_param_translog (fs : List String) (name : String) (h : HasTransitionParam fs (.named "linear") name) :
    HasTransitionParam fs (.named "translog") name := by
  simp only [HasTransitionParam, String.reduceEq, false_and, or_false, true_and, false_or] at h ⊢
  tauto

theorem smaller_switchTranslogToLinear (m : ModelDict α) : Smaller (switchTranslogToLinear m) m :=
  smaller_switch m linear_param_translog

end Skill
