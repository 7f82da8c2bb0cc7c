import Verif.Lemmas.Utilities
/-
C19-C23: utilities.py
-/
namespace Skill
open Spec
variable {α : Type}

/-! ### C20: reduced models are valid -/

section Valid
variable [OfScientific α] [Neg α] [Zero α] [One α] [OfNat α 2] [DecidableEq α]

/-- The model is accepted by process_model. -/
def Accepted (m : ModelDict α) : Prop := ∃ pm, processModel m = .ok pm

theorem validStagemap_take {sm : List Int} {N : Nat} (h : ValidStagemap sm N) {n : Nat} (h1 : 1 ≤ n) (hn : n ≤ N) :
    ValidStagemap (sm.take (n - 1)) n := by
  have hlen := h.length
  refine ⟨by rw [List.length_take]; omega, ?_, ?_⟩
  · obtain ⟨S, hS⟩ := h.stages
    rcases Nat.lt_or_ge 1 n with h2 | h2
    · have hl : n - 2 < sm.length := by omega
      have hv : sm[n - 2]? = some sm[n - 2] := List.getElem?_eq_getElem hl
      have hvb := (hS sm[n - 2]).mp (List.mem_of_getElem? hv)
      refine ⟨(sm[n - 2] + 1).toNat, fun s => ?_⟩
      have hmono : ∀ (i j : Nat) a b, i ≤ j → sm[i]? = some a → sm[j]? = some b → a ≤ b := by
        intro i j a b hij ha hb
        exact stagemap_step_mono h.steps i (j - i) a b ha (by rw [show i + (j - i) = j by omega]; exact hb)
      rw [List.mem_iff_getElem?]
      constructor
      · rintro ⟨i, hi⟩
        rw [getElem?_take_some] at hi
        have := hmono i (n - 2) s _ (by omega) hi.2 hv
        have := (hS s).mp (List.mem_of_getElem? hi.2)
        omega
      · rintro ⟨h3, h4⟩
        have hmem : s ∈ sm := (hS s).mpr ⟨h3, by omega⟩
        obtain ⟨j, hj⟩ := List.mem_iff_getElem?.mp hmem
        rcases Nat.lt_or_ge j (n - 1) with h5 | h5
        · exact ⟨j, getElem?_take_some.mpr ⟨h5, hj⟩⟩
        · have := hmono (n - 2) j _ s (by omega) hv hj
          have : s = sm[n - 2] := by omega
          exact ⟨n - 2, getElem?_take_some.mpr ⟨by omega, by rw [this]; exact hv⟩⟩
    · have : n - 1 = 0 := by omega
      rw [this, List.take_zero]
      exact ⟨0, fun s => by simp⟩
  · intro i a b ha hb
    rw [getElem?_take_some] at ha hb
    exact h.steps i a b ha.2 hb.2

theorem isNPeriods_reduce {m : ModelDict α} {N n : Nat} (hN : IsNPeriods m N) (hn : n ≤ N) : IsNPeriods (reduceNPeriods m n) n := by
  obtain ⟨⟨f, spec, hm, hl⟩, _⟩ := hN
  constructor
  · exact ⟨f, _, mem_reduceNPeriods.mpr ⟨spec, hm, rfl⟩, by rw [reduceFactor_measurements, List.length_take]; omega⟩
  · intro g s hs
    obtain ⟨s', _, rfl⟩ := mem_reduceNPeriods.mp hs
    rw [reduceFactor_measurements, List.length_take]
    omega

theorem loadingNorm_reduce {n : Nat} {s : FactorSpec α} {t : Nat} {v : String} {x : α} (h : LoadingNorm (reduceFactorPeriods n s) t v x) :
    t < n ∧ LoadingNorm s t v x := by
  obtain ⟨ns, ls, d, h1, h2, h3, h4⟩ := h
  change s.normalizations.map _ = some ns at h1
  rw [Option.map_eq_some_iff] at h1
  obtain ⟨ns', hns, rfl⟩ := h1
  change ns'.loadings.map _ = some ls at h2
  rw [Option.map_eq_some_iff] at h2
  obtain ⟨ls', hls, rfl⟩ := h2
  rw [shorten_nat, getElem?_take_some] at h3
  exact ⟨h3.1, ns', ls', d, hns, hls, h3.2, h4⟩

theorem interceptNorm_reduce {n : Nat} {s : FactorSpec α} {t : Nat} {v : String} {x : α} (h : InterceptNorm (reduceFactorPeriods n s) t v x) :
    t < n ∧ InterceptNorm s t v x := by
  obtain ⟨ns, ls, d, h1, h2, h3, h4⟩ := h
  change s.normalizations.map _ = some ns at h1
  rw [Option.map_eq_some_iff] at h1
  obtain ⟨ns', hns, rfl⟩ := h1
  change ns'.intercepts.map _ = some ls at h2
  rw [Option.map_eq_some_iff] at h2
  obtain ⟨ls', hls, rfl⟩ := h2
  rw [shorten_nat, getElem?_take_some] at h3
  exact ⟨h3.1, ns', ls', d, hns, hls, h3.2, h4⟩

/-- Cutting a model to `n` of its periods makes it valid if it is valid except for lengths of lists. -/
theorem accepted_reduce {m : ModelDict α} {N n : Nat} (hN : IsNPeriods m N) (hn : n ≤ N) (h1 : 1 ≤ n) (ho : m.estimationOptions.isSome)
    (hst : ∀ sm, m.stagemap = some sm → ∃ M, ValidStagemap sm M ∧ n ≤ M)
    (hl : ∀ f spec t v x, (f, spec) ∈ m.factors → LoadingNorm spec t v x → x ≠ 0 ∧ ∃ ms, spec.measurements[t]? = some ms ∧ v ∈ ms)
    (hi : ∀ f spec t v x, (f, spec) ∈ m.factors → InterceptNorm spec t v x → ∃ ms, spec.measurements[t]? = some ms ∧ v ∈ ms)
    (ht : ∀ f spec, (f, spec) ∈ m.factors → ValidTransition spec.transition) : Accepted (reduceNPeriods m n) := by
  have hred := isNPeriods_reduce hN hn
  unfold Accepted
  rw [C02_accepts_iff]
  refine ⟨?_, ho, ⟨?_, ?_, ?_, ?_⟩, ?_, ?_⟩
  · obtain ⟨⟨f, spec, hm, _⟩, _⟩ := hred
    exact List.ne_nil_of_mem hm
  · intro k hk
    rw [IsNPeriods.unique hk hred]
    exact h1
  · intro k sm hk hsm
    rw [IsNPeriods.unique hk hred]
    change m.stagemap.map _ = some sm at hsm
    rw [Option.map_eq_some_iff] at hsm
    obtain ⟨sm', hsm', rfl⟩ := hsm
    obtain ⟨M, hM, hle⟩ := hst sm' hsm'
    rw [shorten_pred _ h1]
    exact validStagemap_take hM h1 hle
  · intro f spec t v x hs hx
    obtain ⟨s, hs', rfl⟩ := mem_reduceNPeriods.mp hs
    obtain ⟨htn, hx'⟩ := loadingNorm_reduce hx
    obtain ⟨h0, ms, hms, hv⟩ := hl f s t v x hs' hx'
    exact ⟨h0, ms, by rw [reduceFactor_measurements, getElem?_take_some]; exact ⟨htn, hms⟩, hv⟩
  · intro f spec t v x hs hx
    obtain ⟨s, hs', rfl⟩ := mem_reduceNPeriods.mp hs
    obtain ⟨htn, hx'⟩ := interceptNorm_reduce hx
    obtain ⟨ms, hms, hv⟩ := hi f s t v x hs' hx'
    exact ⟨ms, by rw [reduceFactor_measurements, getElem?_take_some]; exact ⟨htn, hms⟩, hv⟩
  · intro f spec hs
    obtain ⟨s, hs', rfl⟩ := mem_reduceNPeriods.mp hs
    exact ht f s hs'
  · intro f spec ns k hs hns hk
    rw [IsNPeriods.unique hk hred]
    obtain ⟨s, hs', rfl⟩ := mem_reduceNPeriods.mp hs
    change s.normalizations.map _ = some ns at hns
    rw [Option.map_eq_some_iff] at hns
    obtain ⟨ns', _, rfl⟩ := hns
    constructor
    · intro ls hls
      change ns'.loadings.map _ = some ls at hls
      rw [Option.map_eq_some_iff] at hls
      obtain ⟨ls', _, rfl⟩ := hls
      rw [shorten_nat, List.length_take]
      omega
    · intro ls hls
      change ns'.intercepts.map _ = some ls at hls
      rw [Option.map_eq_some_iff] at hls
      obtain ⟨ls', _, rfl⟩ := hls
      rw [shorten_nat, List.length_take]
      omega

/-- Cutting to at least as many periods as the model has changes nothing if lists have their documented lengths. -/
theorem reduce_eq_self {m : ModelDict α} {N n : Nat} (hN : IsNPeriods m N) (hn : N ≤ n) (h1 : 1 ≤ n)
    (hst : ∀ sm, m.stagemap = some sm → sm.length + 1 ≤ n) (hfit : NormListsFit m) : reduceNPeriods m n = m := by
  have hf : m.factors.map (fun fs => (fs.1, reduceFactorPeriods n fs.2)) = m.factors := by
    conv_rhs => rw [← List.map_id m.factors]
    refine List.map_congr_left (fun ⟨f, spec⟩ hs => ?_)
    have hlen := hN.2 f spec hs
    have hm : shortenIfNecessary spec.measurements n = spec.measurements := by
      rw [shorten_nat, List.take_of_length_le (by omega)]
    have hns : spec.normalizations.map (fun ns =>
        ({ loadings := ns.loadings.map (fun ls => shortenIfNecessary ls n)
           intercepts := ns.intercepts.map (fun ls => shortenIfNecessary ls n) } : NormSpec α)) = spec.normalizations := by
      cases hs' : spec.normalizations with
      | none => rfl
      | some ns =>
        obtain ⟨ha, hb⟩ := hfit f spec ns N hs hs' hN
        rw [Option.map_some]
        congr 1
        cases ns with
        | mk l i =>
          congr 1
          · cases l with
            | none => rfl
            | some l => rw [Option.map_some, shorten_nat, List.take_of_length_le (le_trans (ha l rfl) hn)]
          · cases i with
            | none => rfl
            | some l => rw [Option.map_some, shorten_nat, List.take_of_length_le (le_trans (hb l rfl) hn)]
    show (f, reduceFactorPeriods n spec) = (f, spec)
    unfold reduceFactorPeriods
    rw [hm, hns]
  have hs : m.stagemap.map (fun sm => shortenIfNecessary sm ((n : Int) - 1)) = m.stagemap := by
    cases hs : m.stagemap with
    | none => rfl
    | some sm => rw [Option.map_some, shorten_pred _ h1, List.take_of_length_le (by have := hst sm hs; omega)]
  unfold reduceNPeriods
  rw [hf, hs]

theorem accepted_reduceNPeriods {m : ModelDict α} (h : Accepted m) {n : Nat} (h1 : 1 ≤ n) : Accepted (reduceNPeriods m n) := by
  have h' := h
  unfold Accepted at h
  rw [C02_accepts_iff] at h
  obtain ⟨h2, h3, h4, h5, h6⟩ := h
  obtain ⟨N, hN⟩ := exists_isNPeriods h2
  rcases Nat.le_total n N with hn | hn
  · exact accepted_reduce hN hn h1 h3 (fun sm hsm => ⟨N, h4.stagemap N sm hN hsm, hn⟩) h4.loadings h4.intercepts h5
  · rw [reduce_eq_self hN hn h1 (fun sm hsm => by have := (h4.stagemap N sm hN hsm).length; omega) h6]
    exact h'

theorem accepted_removeFactors {m : ModelDict α} (h : Accepted m) {fs : List String}
    (ha : ∀ a, m.anchoring = some a → a.outcomes.isSome)
    (hf : ∃ f spec, (f, spec) ∈ m.factors ∧ f ∉ fs ∧ spec.measurements ≠ []) :
    ∃ out, removeFactors fs m = .ok out ∧ Accepted out := by
  unfold Accepted at h
  rw [C02_accepts_iff] at h
  obtain ⟨h2, h3, h4, h5, h6⟩ := h
  obtain ⟨N, hN⟩ := exists_isNPeriods h2
  obtain ⟨f, spec, hm, hfs, hne⟩ := hf
  have hanch : ∃ a', removeFromAnchoring m.anchoring fs = .ok a' := by
    unfold removeFromAnchoring
    cases hma : m.anchoring with
    | none => exact ⟨_, rfl⟩
    | some a =>
      obtain ⟨os, hos⟩ := Option.isSome_iff_exists.mp (ha a hma)
      simp only [hos]
      split
      · exact ⟨_, rfl⟩
      · exact ⟨_, rfl⟩
  obtain ⟨a', ha'⟩ := hanch
  have hmem : (f, spec) ∈ (dropFactors fs m a').factors := mem_removeFromDict.mpr ⟨hm, hfs⟩
  obtain ⟨n, hn⟩ := exists_isNPeriods (List.ne_nil_of_mem hmem)
  have hnpos : 1 ≤ n := by
    have := hn.2 f spec hmem
    have := List.length_pos_of_ne_nil hne
    omega
  have hnN : n ≤ N := by
    obtain ⟨⟨g, s, hg, hl⟩, _⟩ := hn
    rw [← hl]
    exact hN.2 g s (mem_removeFromDict.mp hg).1
  refine ⟨_, removeFactors_ok.mpr ⟨a', n, ha', h3, hn, rfl⟩, ?_⟩
  refine accepted_reduce hn (le_refl n) hnpos h3 (fun sm hsm => ⟨N, h4.stagemap N sm hN hsm, hnN⟩) ?_ ?_ ?_
  · intro f spec t v x hs hx
    exact h4.loadings f spec t v x (mem_removeFromDict.mp hs).1 hx
  · intro f spec t v x hs hx
    exact h4.intercepts f spec t v x (mem_removeFromDict.mp hs).1 hx
  · intro f spec hs
    exact h5 f spec (mem_removeFromDict.mp hs).1

theorem isNPeriods_congr {m m' : ModelDict α} {n : Nat}
    (h : m'.factors.map (fun fs => fs.2.measurements.length) = m.factors.map (fun fs => fs.2.measurements.length)) :
    IsNPeriods m' n ↔ IsNPeriods m n := by
  have key : ∀ m : ModelDict α, IsNPeriods m n ↔
      n ∈ m.factors.map (fun fs => fs.2.measurements.length) ∧ ∀ k ∈ m.factors.map (fun fs => fs.2.measurements.length), k ≤ n := by
    intro m
    unfold IsNPeriods
    constructor
    · rintro ⟨⟨f, s, h1, h2⟩, h3⟩
      exact ⟨List.mem_map.mpr ⟨(f, s), h1, h2⟩, fun k hk => by
        obtain ⟨⟨g, s⟩, hg, rfl⟩ := List.mem_map.mp hk
        exact h3 g s hg⟩
    · rintro ⟨h1, h2⟩
      obtain ⟨⟨f, s⟩, h1', rfl⟩ := List.mem_map.mp h1
      exact ⟨⟨f, s, h1', rfl⟩, fun g s hg => h2 _ (List.mem_map.mpr ⟨(g, s), hg, rfl⟩)⟩
  rw [key, key, h]

theorem accepted_removeMeasurements {m : ModelDict α} (h : Accepted m) (ms : List String) : Accepted (removeMeasurements ms m) := by
  unfold Accepted at h ⊢
  rw [C02_accepts_iff] at h ⊢
  obtain ⟨h2, h3, h4, h5, h6⟩ := h
  have hper : ∀ n, IsNPeriods (removeMeasurements ms m) n ↔ IsNPeriods m n := fun n => isNPeriods_congr (by
    show (m.factors.map _).map _ = _
    rw [List.map_map]
    exact List.map_congr_left (fun fs _ => by simp [removeFactorMeasurements]))
  refine ⟨?_, h3, ⟨?_, ?_, ?_, ?_⟩, ?_, ?_⟩
  · intro h0
    exact h2 (List.map_eq_nil_iff.mp h0)
  · intro n hn
    exact h4.periods n ((hper n).mp hn)
  · intro n sm hn hsm
    exact h4.stagemap n sm ((hper n).mp hn) hsm
  · rintro f spec t v x hs ⟨ns, ls, d, e1, e2, e3, e4⟩
    obtain ⟨s, hs', rfl⟩ := mem_removeMeasurements.mp hs
    change s.normalizations.map _ = some ns at e1
    rw [Option.map_eq_some_iff] at e1
    obtain ⟨ns', hns, rfl⟩ := e1
    change ns'.loadings.map _ = some ls at e2
    rw [Option.map_eq_some_iff] at e2
    obtain ⟨ls', hls, rfl⟩ := e2
    rw [List.getElem?_map, Option.map_eq_some_iff] at e3
    obtain ⟨d', hd', rfl⟩ := e3
    rw [mem_removeFromDict] at e4
    obtain ⟨h0, l, hl, hv⟩ := h4.loadings f s t v x hs' ⟨ns', ls', d', hns, hls, hd', e4.1⟩
    refine ⟨h0, removeFromList l ms, ?_, mem_removeFromList.mpr ⟨hv, e4.2⟩⟩
    show (s.measurements.map (fun l => removeFromList l ms))[t]? = _
    rw [List.getElem?_map, hl]
    rfl
  · rintro f spec t v x hs ⟨ns, ls, d, e1, e2, e3, e4⟩
    obtain ⟨s, hs', rfl⟩ := mem_removeMeasurements.mp hs
    change s.normalizations.map _ = some ns at e1
    rw [Option.map_eq_some_iff] at e1
    obtain ⟨ns', hns, rfl⟩ := e1
    change ns'.intercepts.map _ = some ls at e2
    rw [Option.map_eq_some_iff] at e2
    obtain ⟨ls', hls, rfl⟩ := e2
    rw [List.getElem?_map, Option.map_eq_some_iff] at e3
    obtain ⟨d', hd', rfl⟩ := e3
    rw [mem_removeFromDict] at e4
    obtain ⟨l, hl, hv⟩ := h4.intercepts f s t v x hs' ⟨ns', ls', d', hns, hls, hd', e4.1⟩
    refine ⟨removeFromList l ms, ?_, mem_removeFromList.mpr ⟨hv, e4.2⟩⟩
    show (s.measurements.map (fun l => removeFromList l ms))[t]? = _
    rw [List.getElem?_map, hl]
    rfl
  · intro f spec hs
    obtain ⟨s, hs', rfl⟩ := mem_removeMeasurements.mp hs
    exact h5 f s hs'
  · intro f spec ns n hs hns hn
    obtain ⟨s, hs', rfl⟩ := mem_removeMeasurements.mp hs
    change s.normalizations.map _ = some ns at hns
    rw [Option.map_eq_some_iff] at hns
    obtain ⟨ns', hns', rfl⟩ := hns
    obtain ⟨ha, hb⟩ := h6 f s ns' n hs' hns' ((hper n).mp hn)
    constructor
    · intro ls hls
      change ns'.loadings.map _ = some ls at hls
      rw [Option.map_eq_some_iff] at hls
      obtain ⟨ls', h7, rfl⟩ := hls
      rw [List.length_map]
      exact ha ls' h7
    · intro ls hls
      change ns'.intercepts.map _ = some ls at hls
      rw [Option.map_eq_some_iff] at hls
      obtain ⟨ls', h7, rfl⟩ := hls
      rw [List.length_map]
      exact hb ls' h7

theorem accepted_removeControls {m out : ModelDict α} (h : Accepted m) {cs : List String} (ho : removeControls cs m = .ok out) : Accepted out := by
  obtain ⟨c, _, rfl⟩ := removeControls_ok ho
  unfold Accepted at h ⊢
  rw [C02_accepts_iff] at h ⊢
  obtain ⟨h2, h3, h4, h5, h6⟩ := h
  exact ⟨h2, h3, ⟨h4.periods, h4.stagemap, h4.loadings, h4.intercepts⟩, h5, h6⟩

theorem accepted_switch {m : ModelDict α} (h : Accepted m) {old new : String} (hv : ValidTransition (.named new)) : Accepted (switchTransition old new m) := by
  unfold Accepted at h ⊢
  rw [C02_accepts_iff] at h ⊢
  obtain ⟨h2, h3, h4, h5, h6⟩ := h
  have hper : ∀ n, IsNPeriods (switchTransition old new m) n ↔ IsNPeriods m n := fun n => isNPeriods_congr (by
    show (m.factors.map _).map _ = _
    rw [List.map_map]
    rfl)
  refine ⟨?_, h3, ⟨?_, ?_, ?_, ?_⟩, ?_, ?_⟩
  · intro h0
    exact h2 (List.map_eq_nil_iff.mp h0)
  · intro n hn
    exact h4.periods n ((hper n).mp hn)
  · intro n sm hn hsm
    exact h4.stagemap n sm ((hper n).mp hn) hsm
  · intro f spec t v x hs hx
    obtain ⟨s, hs', rfl⟩ := mem_switchTransition.mp hs
    exact h4.loadings f s t v x hs' hx
  · intro f spec t v x hs hx
    obtain ⟨s, hs', rfl⟩ := mem_switchTransition.mp hs
    exact h4.intercepts f s t v x hs' hx
  · intro f spec hs
    obtain ⟨s, hs', rfl⟩ := mem_switchTransition.mp hs
    show ValidTransition (if s.transition = .named old then .named new else s.transition)
    split
    · exact hv
    · exact h5 f s hs'
  · intro f spec ns n hs hns hn
    obtain ⟨s, hs', rfl⟩ := mem_switchTransition.mp hs
    exact h6 f s ns n hs' hns ((hper n).mp hn)

/-- **C20.** Editing an accepted model gives an accepted model: removing factors if a factor with at least one period
remains (and, if there is an anchoring section, it has outcomes), removing measurements, removing controls (if there
are some), cutting to at least one period, switching between linear and translog. -/
theorem C20_edits_keep_models_valid {m : ModelDict α} (h : Accepted m) :
    (∀ fs, (∀ a, m.anchoring = some a → a.outcomes.isSome) → (∃ f spec, (f, spec) ∈ m.factors ∧ f ∉ fs ∧ spec.measurements ≠ []) →
      ∃ out, removeFactors fs m = .ok out ∧ Accepted out) ∧
    (∀ fs, (∀ a, m.anchoring = some a → a.outcomes.isSome) → (∃ f spec, (f, spec) ∈ m.factors ∧ f ∈ fs ∧ spec.measurements ≠ []) →
      ∃ out, extractFactors fs m = .ok out ∧ Accepted out) ∧
    (∀ ms, Accepted (removeMeasurements ms m)) ∧
    (∀ cs, m.controls.isSome → ∃ out, removeControls cs m = .ok out ∧ Accepted out) ∧
    (∀ n, 1 ≤ n → Accepted (reduceNPeriods m n)) ∧
    Accepted (switchTranslogToLinear m) ∧ Accepted (switchLinearToTranslog m) := by
  refine ⟨fun fs ha hf => accepted_removeFactors h ha hf, ?_, fun ms => accepted_removeMeasurements h ms, ?_,
    fun n h1 => accepted_reduceNPeriods h h1, accepted_switch h (by simp [ValidTransition]), accepted_switch h (by simp [ValidTransition])⟩
  · rintro fs ha ⟨f, spec, hm, hf, hne⟩
    refine accepted_removeFactors h ha ⟨f, spec, hm, ?_, hne⟩
    rw [List.mem_filter, decide_eq_true_iff]
    exact fun h => h.2 hf
  · intro cs hc
    obtain ⟨c, hc⟩ := Option.isSome_iff_exists.mp hc
    have : removeControls cs m = .ok { m with controls := if removeFromList c cs = [] then none else some (removeFromList c cs) } := by
      unfold removeControls
      rw [hc]
    exact ⟨_, this, accepted_removeControls h this⟩

/-! ### C19: nested parameters -/

/-- `out` is the model after one of the reducing edits of `m`. -/
inductive ReducedTo (m : ModelDict α) : ModelDict α → Prop
  | factors {fs out} : removeFactors fs m = .ok out → ReducedTo m out
  | extract {fs out} : extractFactors fs m = .ok out → ReducedTo m out
  | measurements (ms) : ReducedTo m (removeMeasurements ms m)
  | controls {cs out} : removeControls cs m = .ok out → ReducedTo m out
  | linear : ReducedTo m (switchTranslogToLinear m)
  | periods (n) : ReducedTo m (reduceNPeriods m n)

theorem ReducedTo.smaller {m out : ModelDict α} (h : ReducedTo m out) : Smaller out m := by
  cases h with
  | factors h => exact smaller_removeFactors h
  | extract h => exact smaller_removeFactors h
  | measurements ms => exact smaller_removeMeasurements ms m
  | controls h => exact smaller_removeControls h
  | linear => exact smaller_switchTranslogToLinear m
  | periods n => exact smaller_reduceNPeriods m n

theorem filter_eq_singleton {p : ParamsFrame α} (hn : p.index.Nodup) {l : Loc} {row : ParamsRow α} (h : (l, row) ∈ p.rows) :
    p.rows.filter (fun r => decide (r.1 = l)) = [(l, row)] := by
  unfold ParamsFrame.index at hn
  generalize p.rows = rows at *
  induction rows with
  | nil => cases h
  | cons r rs ih =>
    rw [List.map_cons, List.nodup_cons] at hn
    rcases List.mem_cons.mp h with rfl | h
    · rw [List.filter_cons_of_pos (by simp)]
      congr 1
      rw [List.filter_eq_nil_iff]
      intro q hq hql
      rw [decide_eq_true_iff] at hql
      exact hn.1 (hql ▸ List.mem_map.mpr ⟨q, hq, rfl⟩)
    · rw [List.filter_cons_of_neg, ih hn.2 h]
      rw [decide_eq_true_iff]
      intro he
      exact hn.1 (he ▸ List.mem_map.mpr ⟨_, h, rfl⟩)

theorem find_eq {p : ParamsFrame α} (hn : p.index.Nodup) {l : Loc} {row : ParamsRow α} (h : (l, row) ∈ p.rows) :
    p.rows.find? (fun r => decide (r.1 = l)) = some (l, row) := by
  rw [← List.head?_filter, filter_eq_singleton hn h]
  rfl

theorem exists_row {p : ParamsFrame α} {l : Loc} (h : l ∈ p.index) : ∃ row, (l, row) ∈ p.rows := by
  obtain ⟨⟨l', row⟩, hr, rfl⟩ := List.mem_map.mp h
  exact ⟨row, hr⟩

/-- Let `out` be a reduced version of `m`, both accepted. The parameters of `out` are parameters of `m`. For params of
the full model (each label once, no label missing) the reduced params exist, have the index of the reduced
model in its order and the rows of the full params; cutting periods also keeps all values. -/
theorem nested_params {m out : ModelDict α} {pm po : Processed α} (h : ReducedTo m out) (hm : processModel m = .ok pm) (ho : processModel out = .ok po)
    {p : ParamsFrame α} (hp : p.index.Nodup) (hall : ∀ l ∈ pm.paramsIndex, l ∈ p.index) (fill : α) :
    (∀ l ∈ po.paramsIndex, l ∈ pm.paramsIndex) ∧
    (∃ q, reduceParams p out = .ok q ∧ q.index = po.paramsIndex ∧ ∀ r ∈ q.rows, r ∈ p.rows) ∧
    (∃ q, extendParams p out fill = .ok q ∧ q.index = po.paramsIndex ∧
      ∀ l row, (l, row) ∈ p.rows → ∀ row', (l, row') ∈ q.rows → (∀ x, row.value = some x → row'.value = some x) ∧
        (∀ b, row.lower = some b → row'.lower = some b) ∧ (∀ b, row.upper = some b → row'.upper = some b)) := by
  have hsub : ∀ l ∈ po.paramsIndex, l ∈ pm.paramsIndex := by
    intro l hl
    rw [C05_index_membership ho] at hl
    rw [C05_index_membership hm]
    exact h.smaller.isParam hl
  have hidx : paramsIndexOfModel out = .ok po.paramsIndex := by
    unfold paramsIndexOfModel
    rw [ho]
    rfl
  have hrow : ∀ l ∈ po.paramsIndex, ∃ row, (l, row) ∈ p.rows := fun l hl => exists_row (hall l (hsub l hl))
  refine ⟨hsub, ?_, ?_⟩
  · unfold reduceParams
    rw [hidx]
    have : ∃ rows : List (Loc × ParamsRow α), po.paramsIndex.mapM (fun l =>
        let found := p.rows.filter (fun r => decide (r.1 = l))
        if found.isEmpty then (.error .keyError : Py (List (Loc × ParamsRow α))) else .ok found) = .ok (rows.map (fun r => [r])) ∧
        rows.map Prod.fst = po.paramsIndex ∧ ∀ r ∈ rows, r ∈ p.rows := by
      clear hidx ho
      generalize po.paramsIndex = idx at *
      clear hsub
      induction idx with
      | nil => exact ⟨[], rfl, rfl, by simp⟩
      | cons l ls ih =>
        obtain ⟨rows, h1, h2, h3⟩ := ih (fun l hl => hrow l (List.mem_cons_of_mem _ hl))
        obtain ⟨row, hr⟩ := hrow l List.mem_cons_self
        refine ⟨(l, row) :: rows, ?_, by rw [List.map_cons, h2], ?_⟩
        · rw [mapM_ok_iff] at h1 ⊢
          rw [List.map_cons]
          refine List.Forall₂.cons ?_ h1
          rw [filter_eq_singleton hp hr]
          rfl
        · intro r hr'
          rcases List.mem_cons.mp hr' with rfl | hr'
          · exact hr
          · exact h3 r hr'
    obtain ⟨rows, h1, h2, h3⟩ := this
    have hfl : (rows.map (fun r => [r])).flatten = rows := by
      clear h1 h2 h3
      induction rows with
      | nil => rfl
      | cons r rs ih => rw [List.map_cons, List.flatten_cons, ih]; rfl
    refine ⟨{ p with rows := rows }, ?_, h2, h3⟩
    rw [py_bind_ok]
    refine ⟨_, rfl, ?_⟩
    rw [py_bind_ok]
    refine ⟨_, h1, ?_⟩
    rw [hfl]
    rfl
  · unfold extendParams
    rw [hidx]
    refine ⟨_, if_pos hp, ?_, ?_⟩
    · unfold ParamsFrame.index
      rw [List.map_map]
      exact List.map_id _
    · intro l row hr row' hr'
      rw [List.mem_map] at hr'
      obtain ⟨l', _, he⟩ := hr'
      cases he
      rw [find_eq hp hr]
      refine ⟨fun x hx => ?_, fun b hb => ?_, fun b hb => ?_⟩
      · show some ((row.value).getD fill) = _
        rw [hx]
        rfl
      · show (if p.hasLower then some (row.lower.getD .negInf) else row.lower) = _
        rw [hb]
        split <;> rfl
      · show (if p.hasUpper then some (row.upper.getD .posInf) else row.upper) = _
        rw [hb]
        split <;> rfl

/-- The params `q` fit to the reduced model `out`: their index is the index of `out` in its order, all its labels are labels of the full model, and
all values (and bounds) are those of the full params `p`. -/
def KeepsParams (pm : Processed α) (p : ParamsFrame α) (out : ModelDict α) (q : ParamsFrame α) : Prop :=
  ∃ po, processModel out = .ok po ∧ (∀ l ∈ po.paramsIndex, l ∈ pm.paramsIndex) ∧ q.index = po.paramsIndex ∧
    ∀ l row, (l, row) ∈ q.rows → ∃ row', (l, row') ∈ p.rows ∧ (∀ x, row'.value = some x → row.value = some x) ∧
      (∀ b, row'.lower = some b → row.lower = some b) ∧ (∀ b, row'.upper = some b → row.upper = some b)

theorem keeps_reduce {m out : ModelDict α} {pm : Processed α} (h : ReducedTo m out) (hm : processModel m = .ok pm) (ho : Accepted out)
    {p : ParamsFrame α} (hp : p.index.Nodup) (hall : ∀ l ∈ pm.paramsIndex, l ∈ p.index) :
    ∃ q, reduceParams p out = .ok q ∧ KeepsParams pm p out q := by
  obtain ⟨po, ho⟩ := ho
  obtain ⟨h1, ⟨q, h2, h3, h4⟩, _⟩ := nested_params h hm ho hp hall 0
  exact ⟨q, h2, po, ho, h1, h3, fun l row hr => ⟨row, h4 _ hr, fun _ h => h, fun _ h => h, fun _ h => h⟩⟩

theorem keeps_extend {m out : ModelDict α} {pm : Processed α} (h : ReducedTo m out) (hm : processModel m = .ok pm) (ho : Accepted out)
    {p : ParamsFrame α} (hp : p.index.Nodup) (hall : ∀ l ∈ pm.paramsIndex, l ∈ p.index) (fill : α) :
    ∃ q, extendParams p out fill = .ok q ∧ KeepsParams pm p out q := by
  obtain ⟨po, ho⟩ := ho
  obtain ⟨h1, _, ⟨q, h2, h3, h4⟩⟩ := nested_params h hm ho hp hall fill
  refine ⟨q, h2, po, ho, h1, h3, fun l row hr => ?_⟩
  have hl : l ∈ p.index := hall l (h1 l (by rw [← h3]; exact List.mem_map.mpr ⟨_, hr, rfl⟩))
  obtain ⟨row', hr'⟩ := exists_row hl
  exact ⟨row', hr', h4 l row' hr' row hr⟩

/-- **C19.** For an accepted model and params with all its labels (each once), the reducing functions never fail, and
the returned params have the index of the returned model, which is nested in the index of the full model, and keep
all values. -/
theorem C19_params_of_reduced_models {m : ModelDict α} {pm : Processed α} (hm : processModel m = .ok pm)
    {p : ParamsFrame α} (hp : p.index.Nodup) (hall : ∀ l ∈ pm.paramsIndex, l ∈ p.index) :
    (∀ fs, (∀ a, m.anchoring = some a → a.outcomes.isSome) → (∃ f spec, (f, spec) ∈ m.factors ∧ f ∉ fs ∧ spec.measurements ≠ []) →
      ∃ out q, removeFactorsParams fs m p = .ok (out, q) ∧ KeepsParams pm p out q) ∧
    (∀ fs, (∀ a, m.anchoring = some a → a.outcomes.isSome) → (∃ f spec, (f, spec) ∈ m.factors ∧ f ∈ fs ∧ spec.measurements ≠ []) →
      ∃ out q, extractFactorsParams fs m p = .ok (out, q) ∧ KeepsParams pm p out q) ∧
    (∀ ms, ∃ out q, removeMeasurementsParams ms m p = .ok (out, q) ∧ KeepsParams pm p out q) ∧
    (∀ cs, m.controls.isSome → ∃ out q, removeControlsParams cs m p = .ok (out, q) ∧ KeepsParams pm p out q) ∧
    (∀ n, 1 ≤ n → ∃ out q, reduceNPeriodsParams m n p = .ok (out, q) ∧ KeepsParams pm p out q) ∧
    (∃ out q, switchTranslogToLinearParams m p = .ok (out, q) ∧ KeepsParams pm p out q) := by
  obtain ⟨v1, v2, v3, v4, v5, v6, _⟩ := C20_edits_keep_models_valid ⟨pm, hm⟩
  have hrem : ∀ fs out, removeFactors fs m = .ok out → Accepted out → ∃ q, removeFactorsParams fs m p = .ok (out, q) ∧ KeepsParams pm p out q := by
    intro fs out h1 h2
    obtain ⟨q, h3, h4⟩ := keeps_reduce (.factors h1) hm h2 hp hall
    refine ⟨q, ?_, h4⟩
    unfold removeFactorsParams
    rw [py_bind_ok]
    refine ⟨out, h1, ?_⟩
    rw [py_bind_ok]
    exact ⟨q, h3, rfl⟩
  refine ⟨?_, ?_, ?_, ?_, ?_, ?_⟩
  · intro fs h1 h2
    obtain ⟨out, h3, h4⟩ := v1 fs h1 h2
    exact ⟨out, hrem fs out h3 h4⟩
  · intro fs h1 h2
    obtain ⟨out, h3, h4⟩ := v2 fs h1 h2
    exact ⟨out, hrem _ out h3 h4⟩
  · intro ms
    obtain ⟨q, h3, h4⟩ := keeps_reduce (.measurements ms) hm (v3 ms) hp hall
    refine ⟨_, q, ?_, h4⟩
    exact py_bind_ok.mpr ⟨q, h3, rfl⟩
  · intro cs h1
    obtain ⟨out, h2, h3⟩ := v4 cs h1
    obtain ⟨q, h4, h5⟩ := keeps_reduce (.controls h2) hm h3 hp hall
    refine ⟨out, q, ?_, h5⟩
    unfold removeControlsParams
    rw [py_bind_ok]
    refine ⟨out, h2, ?_⟩
    rw [py_bind_ok]
    exact ⟨q, h4, rfl⟩
  · intro n h1
    obtain ⟨q, h3, h4⟩ := keeps_extend (.periods n) hm (v5 n h1) hp hall 0.05
    refine ⟨_, q, ?_, h4⟩
    exact py_bind_ok.mpr ⟨q, h3, rfl⟩
  · obtain ⟨q, h3, h4⟩ := keeps_reduce .linear hm v6 hp hall
    refine ⟨_, q, ?_, h4⟩
    exact py_bind_ok.mpr ⟨q, h3, rfl⟩

end Valid

theorem ok_bind {β γ : Type} (x : β) (f : β → Py γ) : ((.ok x : Py β) >>= f) = f x := rfl

/-! ### C21: composition -/

theorem removeFromDict_congr {β : Type _} (d : Dict β) {r r' : List String} (h : ∀ kv ∈ d, kv.1 ∈ r ↔ kv.1 ∈ r') : removeFromDict d r = removeFromDict d r' := by
  unfold removeFromDict
  exact List.filter_congr (fun kv hkv => by simp [h kv hkv])

theorem removeFromDict_twice {β : Type _} (d : Dict β) {a b c : List String} (h : ∀ x, x ∈ c ↔ x ∈ a ∨ x ∈ b) :
    removeFromDict (removeFromDict d b) a = removeFromDict d c := by
  unfold removeFromDict
  rw [List.filter_filter]
  refine List.filter_congr (fun kv _ => ?_)
  simp [h kv.1]

theorem removeFromList_twice (d : List String) {a b c : List String} (h : ∀ x, x ∈ c ↔ x ∈ a ∨ x ∈ b) :
    removeFromList (removeFromList d b) a = removeFromList d c := by
  unfold removeFromList
  rw [List.filter_filter]
  refine List.filter_congr (fun kv _ => ?_)
  simp [h kv]

theorem reduceFactor_twice (a b : Nat) (s : FactorSpec α) : reduceFactorPeriods b (reduceFactorPeriods a s) = reduceFactorPeriods (min a b) s := by
  unfold reduceFactorPeriods
  congr 1
  · simp only [shorten_nat, List.take_take, Nat.min_comm]
  · cases s.normalizations with
    | none => rfl
    | some ns =>
      simp only [Option.map_some]
      congr 2
      · cases ns.loadings with
        | none => rfl
        | some l => simp only [Option.map_some, shorten_nat, List.take_take, Nat.min_comm]
      · cases ns.intercepts with
        | none => rfl
        | some l => simp only [Option.map_some, shorten_nat, List.take_take, Nat.min_comm]

theorem stagemap_twice {a b : Nat} (ha : 1 ≤ a) (hb : 1 ≤ b) (sm : List Int) :
    shortenIfNecessary (shortenIfNecessary sm ((a : Int) - 1)) ((b : Int) - 1) = shortenIfNecessary sm (((min a b : Nat) : Int) - 1) := by
  rw [shorten_pred _ ha, shorten_pred _ hb, shorten_pred _ (by omega), List.take_take]
  congr 1
  omega

/-- **C21** (periods): cutting twice is cutting once to the smaller number of periods. -/
theorem C21_reduce_n_periods (m : ModelDict α) {a b : Nat} (ha : 1 ≤ a) (hb : 1 ≤ b) :
    reduceNPeriods (reduceNPeriods m a) b = reduceNPeriods m (min a b) := by
  unfold reduceNPeriods
  simp only [List.map_map, Option.map_map, Function.comp_def, reduceFactor_twice, stagemap_twice ha hb]

/-- **C21** (measurements): removing in sequence is removing the union. -/
theorem C21_remove_measurements (m : ModelDict α) {a b c : List String} (h : ∀ x, x ∈ c ↔ x ∈ a ∨ x ∈ b) :
    removeMeasurements a (removeMeasurements b m) = removeMeasurements c m := by
  unfold removeMeasurements removeFactorMeasurements
  simp only [List.map_map, Option.map_map, Function.comp_def, removeFromList_twice _ h, removeFromDict_twice _ h]

/-- **C21** (controls): removing in sequence is removing the union if a control is left after the first removal. -/
theorem C21_remove_controls (m : ModelDict α) {a b c cs : List String} (h : ∀ x, x ∈ c ↔ x ∈ a ∨ x ∈ b)
    (hc : m.controls = some cs) (hne : ∃ x ∈ cs, x ∉ b) :
    (removeControls b m >>= removeControls a) = removeControls c m := by
  have hb : removeFromList cs b ≠ [] := by
    obtain ⟨x, hx, hxb⟩ := hne
    exact List.ne_nil_of_mem (mem_removeFromList.mpr ⟨hx, hxb⟩)
  have h1 : removeControls b m = .ok { m with controls := some (removeFromList cs b) } := by
    unfold removeControls
    rw [hc]
    show Except.ok _ = _
    rw [if_neg hb]
  rw [h1, ok_bind]
  unfold removeControls
  rw [hc]
  simp only [removeFromList_twice cs h]

/-- Otherwise the second removal is a KeyError because the section does not exist any more. -/
theorem C21_remove_controls_key_error (m : ModelDict α) {a b cs : List String} (hc : m.controls = some cs) (hall : ∀ x ∈ cs, x ∈ b) :
    (removeControls b m >>= removeControls a) = .error .keyError := by
  have hb : removeFromList cs b = [] := by
    rw [List.eq_nil_iff_forall_not_mem]
    intro x hx
    rw [mem_removeFromList] at hx
    exact hx.2 (hall x hx.1)
  have h1 : removeControls b m = .ok { m with controls := none } := by
    unfold removeControls
    rw [hc]
    show Except.ok _ = _
    rw [if_pos hb]
  rw [h1]
  rfl

theorem removeFromAnchoring_twice (anchoring : Option AnchoringSpec) {a b c : List String} (h : ∀ x, x ∈ c ↔ x ∈ a ∨ x ∈ b) :
    (removeFromAnchoring anchoring b >>= fun a' => removeFromAnchoring a' a) = removeFromAnchoring anchoring c := by
  cases anchoring with
  | none => rfl
  | some an =>
    cases ho : an.outcomes with
    | none => simp only [removeFromAnchoring, ho]; rfl
    | some os =>
      have hc := removeFromDict_twice os h
      by_cases hb : removeFromDict os b = []
      · have h1 : removeFromAnchoring (some an) b = .ok none := by simp only [removeFromAnchoring, ho, hb]; rfl
        have h2 : removeFromAnchoring (some an) c = .ok none := by
          rw [hb] at hc
          simp only [removeFromAnchoring, ho, ← hc]
          rfl
        rw [h1, h2]
        rfl
      · have h1 : removeFromAnchoring (some an) b = .ok (some { an with outcomes := some (removeFromDict os b) }) := by
          simp only [removeFromAnchoring, ho]
          rw [if_neg (by rwa [List.isEmpty_iff])]
        rw [h1, ok_bind]
        simp only [removeFromAnchoring, ho, hc]

/-- **C21** (factors): removing in sequence is removing the union, whenever a factor with at least one period is left. -/
theorem C21_remove_factors (m : ModelDict α) {a b c : List String} (h : ∀ x, x ∈ c ↔ x ∈ a ∨ x ∈ b)
    (hf : ∃ f spec, (f, spec) ∈ m.factors ∧ f ∉ c ∧ spec.measurements ≠ []) :
    (removeFactors b m >>= removeFactors a) = removeFactors c m := by
  obtain ⟨f, spec, hm, hfc, hne⟩ := hf
  have hlen := List.length_pos_of_ne_nil hne
  have hfa : f ∉ a := fun hx => hfc ((h f).mpr (Or.inl hx))
  have hfb : f ∉ b := fun hx => hfc ((h f).mpr (Or.inr hx))
  have hanch := removeFromAnchoring_twice m.anchoring h
  cases hb : removeFromAnchoring m.anchoring b with
  | error e =>
    rw [hb] at hanch
    have h1 : removeFactors b m = .error e := by unfold removeFactors; rw [hb]; rfl
    have h2 : removeFactors c m = .error e := by unfold removeFactors; rw [← hanch]; rfl
    rw [h1, h2]
    rfl
  | ok a1 =>
    rw [hb] at hanch
    change removeFromAnchoring a1 a = removeFromAnchoring m.anchoring c at hanch
    have hmb : (f, spec) ∈ (dropFactors b m a1).factors := mem_removeFromDict.mpr ⟨hm, hfb⟩
    obtain ⟨nb, hnb⟩ := exists_isNPeriods (List.ne_nil_of_mem hmb)
    have hnb1 : 1 ≤ nb := by have := hnb.2 f spec hmb; omega
    by_cases ho : m.estimationOptions.isSome
    · have h1 : removeFactors b m = .ok (reduceNPeriods (dropFactors b m a1) nb) := removeFactors_ok.mpr ⟨a1, nb, hb, ho, hnb, rfl⟩
      rw [h1, ok_bind]
      cases ha : removeFromAnchoring a1 a with
      | error e =>
        have h2 : removeFactors a (reduceNPeriods (dropFactors b m a1) nb) = .error e := by
          unfold removeFactors
          show (removeFromAnchoring a1 a >>= _) = _
          rw [ha]
          rfl
        have h3 : removeFactors c m = .error e := by unfold removeFactors; rw [← hanch, ha]; rfl
        rw [h2, h3]
      | ok a2 =>
        have hac : removeFromAnchoring m.anchoring c = .ok a2 := by rw [← hanch, ha]
        have hmc : (f, spec) ∈ (dropFactors c m a2).factors := mem_removeFromDict.mpr ⟨hm, hfc⟩
        obtain ⟨nc, hnc⟩ := exists_isNPeriods (List.ne_nil_of_mem hmc)
        have hnc1 : 1 ≤ nc := by have := hnc.2 f spec hmc; omega
        have hcb : nc ≤ nb := by
          obtain ⟨⟨g, s, hg, hl⟩, _⟩ := hnc
          rw [← hl]
          obtain ⟨hg1, hg2⟩ := mem_removeFromDict.mp hg
          exact hnb.2 g s (mem_removeFromDict.mpr ⟨hg1, fun hx => hg2 ((h g).mpr (Or.inr hx))⟩)
        have h3 : removeFactors c m = .ok (reduceNPeriods (dropFactors c m a2) nc) := removeFactors_ok.mpr ⟨a2, nc, hac, ho, hnc, rfl⟩
        have hdrop : dropFactors a (reduceNPeriods (dropFactors b m a1) nb) a2 = reduceNPeriods (dropFactors c m a2) nb := by
          have hd : removeFromDict ((removeFromDict m.factors b).map (fun fs => (fs.1, reduceFactorPeriods nb fs.2))) a =
              (removeFromDict m.factors c).map (fun fs => (fs.1, reduceFactorPeriods nb fs.2)) := by
            rw [← removeFromDict_twice m.factors h]
            conv_lhs => unfold removeFromDict
            conv_rhs => unfold removeFromDict
            rw [List.filter_map]
            rfl
          unfold dropFactors reduceNPeriods
          simp only [hd]
        have hper : IsNPeriods (dropFactors a (reduceNPeriods (dropFactors b m a1) nb) a2) nc := by
          rw [hdrop]
          obtain ⟨⟨g, s, hg, hl⟩, hmax⟩ := hnc
          constructor
          · exact ⟨g, _, mem_reduceNPeriods.mpr ⟨s, hg, rfl⟩, by rw [reduceFactor_measurements, List.length_take]; omega⟩
          · intro g' s' hs'
            obtain ⟨s'', hs'', rfl⟩ := mem_reduceNPeriods.mp hs'
            have := hmax g' s'' hs''
            rw [reduceFactor_measurements, List.length_take]
            omega
        have h2 : removeFactors a (reduceNPeriods (dropFactors b m a1) nb) = .ok (reduceNPeriods (dropFactors a (reduceNPeriods (dropFactors b m a1) nb) a2) nc) :=
          removeFactors_ok.mpr ⟨a2, nc, ha, ho, hper, rfl⟩
        rw [h2, h3, hdrop, C21_reduce_n_periods _ hnb1 hnc1, Nat.min_eq_right hcb]
    · have hno : ∀ (m' : ModelDict α), m'.factors ≠ [] → ¬ m'.estimationOptions.isSome → getDimensions m' = .error .keyError := by
        intro m' h1 h2
        unfold getDimensions
        obtain ⟨x, xs, hx⟩ := List.exists_cons_of_ne_nil h1
        rw [hx]
        cases hoo : m'.estimationOptions with
        | none => rfl
        | some o => rw [hoo] at h2; simp at h2
      have h1 : removeFactors b m = .error .keyError := by
        unfold removeFactors
        rw [hb]
        show (getDimensions (dropFactors b m a1) >>= _) = _
        rw [hno _ (List.ne_nil_of_mem hmb) ho]
        rfl
      rw [h1]
      show Except.error _ = _
      unfold removeFactors
      rw [← hanch]
      cases ha : removeFromAnchoring a1 a with
      | error e =>
        have he : e = .keyError := by
          unfold removeFromAnchoring at ha
          cases a1 with
          | none => cases ha
          | some an =>
            cases hos : an.outcomes with
            | none => simp only [hos] at ha; exact (Except.error.inj ha).symm
            | some os => simp only [hos] at ha; split at ha <;> cases ha
        rw [he]
        rfl
      | ok a2 =>
        show _ = (getDimensions (dropFactors c m a2) >>= _)
        have hmc : (f, spec) ∈ (dropFactors c m a2).factors := mem_removeFromDict.mpr ⟨hm, hfc⟩
        rw [hno _ (List.ne_nil_of_mem hmc) ho]
        rfl

/-- **C21** (extract): extracting factors is removing all other latent factors. -/
theorem C21_extract_factors (m : ModelDict α) {keep c : List String} (h : ∀ f, f ∈ c ↔ IsLatent m f ∧ f ∉ keep) :
    extractFactors keep m = removeFactors c m := by
  unfold extractFactors
  have hmem : ∀ f, f ∈ (Dict.keys m.factors).filter (fun f => decide (f ∉ keep)) ↔ f ∈ c := by
    intro f
    rw [List.mem_filter, decide_eq_true_iff, h]
    refine and_congr_left (fun _ => ?_)
    unfold Dict.keys IsLatent
    rw [List.mem_map]
    constructor
    · rintro ⟨⟨g, s⟩, hg, rfl⟩
      exact ⟨s, hg⟩
    · rintro ⟨s, hs⟩
      exact ⟨(f, s), hs, rfl⟩
  generalize (Dict.keys m.factors).filter (fun f => decide (f ∉ keep)) = r at hmem
  have hd : ∀ {β : Type} (d : Dict β), removeFromDict d r = removeFromDict d c := fun d => removeFromDict_congr d (fun kv _ => hmem kv.1)
  unfold removeFactors removeFromAnchoring
  simp only [hd]

/-- **C21** (nothing): removing no factor changes nothing in an accepted model (whose anchoring section, if any, has an outcome). -/
theorem C21_remove_nothing [OfScientific α] [Neg α] [Zero α] [One α] [OfNat α 2] [DecidableEq α] {m : ModelDict α} (h : Accepted m)
    (ha : ∀ a, m.anchoring = some a → ∃ o os, a.outcomes = some (o :: os)) : removeFactors [] m = .ok m := by
  unfold Accepted at h
  rw [C02_accepts_iff] at h
  obtain ⟨h2, h3, h4, h5, h6⟩ := h
  obtain ⟨N, hN⟩ := exists_isNPeriods h2
  have hd : ∀ {β : Type} (d : Dict β), removeFromDict d [] = d := fun d => by
    unfold removeFromDict
    rw [List.filter_eq_self]
    simp
  have hanch : removeFromAnchoring m.anchoring [] = .ok m.anchoring := by
    cases hma : m.anchoring with
    | none => rfl
    | some a =>
      obtain ⟨o, os, ho⟩ := ha a hma
      simp only [removeFromAnchoring, ho, hd]
      rw [if_neg (by simp)]
      rw [← ho]
  have hdrop : dropFactors [] m m.anchoring = m := by
    unfold dropFactors
    rw [hd]
  rw [removeFactors_ok]
  refine ⟨m.anchoring, N, hanch, h3, by rw [hdrop]; exact hN, ?_⟩
  rw [hdrop, reduce_eq_self hN (le_refl N) (h4.periods N hN) (fun sm hsm => (h4.stagemap N sm hN hsm).length.le) h6]

/-! ### C22: switching -/

theorem switch_factors_getElem (old new : String) (m : ModelDict α) {i : Nat} {f : String} {spec : FactorSpec α} (h : m.factors[i]? = some (f, spec)) :
    (switchTransition old new m).factors[i]? = some (f, { spec with transition := if spec.transition = .named old then .named new else spec.transition }) := by
  show (m.factors.map _)[i]? = _
  rw [List.getElem?_map, h]
  rfl

/-- **C22** (models): after the switch no translog factor is left, factors with another transition function and everything else stay the same; switching is
idempotent, and switching to translog and back gives the original model if it had no translog factor. -/
theorem C22_switch (m : ModelDict α) :
    (∀ f spec, (f, spec) ∈ (switchTranslogToLinear m).factors → spec.transition ≠ .named "translog") ∧
    (switchTranslogToLinear m = { m with factors := (switchTranslogToLinear m).factors }) ∧
    ((switchTranslogToLinear m).factors.length = m.factors.length) ∧
    (∀ (i : Nat) f spec, m.factors[i]? = some (f, spec) → spec.transition ≠ .named "translog" →
      (switchTranslogToLinear m).factors[i]? = some (f, spec)) ∧
    (∀ (i : Nat) f spec, m.factors[i]? = some (f, spec) → spec.transition = .named "translog" →
      (switchTranslogToLinear m).factors[i]? = some (f, { spec with transition := .named "linear" })) ∧
    switchTranslogToLinear (switchTranslogToLinear m) = switchTranslogToLinear m ∧
    switchLinearToTranslog (switchLinearToTranslog m) = switchLinearToTranslog m ∧
    ((∀ f spec, (f, spec) ∈ m.factors → spec.transition ≠ .named "translog") → switchTranslogToLinear (switchLinearToTranslog m) = m) := by
  refine ⟨?_, rfl, ?_, ?_, ?_, ?_, ?_, ?_⟩
  · intro f spec hs
    obtain ⟨s, _, rfl⟩ := mem_switchTransition.mp hs
    simp only
    split
    · simp
    · assumption
  · exact List.length_map _
  · intro i f spec h hne
    have := switch_factors_getElem "translog" "linear" m h
    rw [if_neg hne] at this
    exact this
  · intro i f spec h he
    have := switch_factors_getElem "translog" "linear" m h
    rw [if_pos he] at this
    exact this
  · unfold switchTranslogToLinear switchTransition
    simp only [List.map_map, Function.comp_def]
    congr 1
    refine List.map_congr_left (fun fs _ => ?_)
    congr 2
    split <;> simp_all
  · unfold switchLinearToTranslog switchTransition
    simp only [List.map_map, Function.comp_def]
    congr 1
    refine List.map_congr_left (fun fs _ => ?_)
    congr 2
    split <;> simp_all
  · intro hno
    have : (switchTranslogToLinear (switchLinearToTranslog m)).factors = m.factors := by
      show (m.factors.map _).map _ = _
      rw [List.map_map]
      conv_rhs => rw [← List.map_id m.factors]
      refine List.map_congr_left (fun ⟨f, spec⟩ hs => ?_)
      have := hno f spec hs
      simp only [Function.comp_def, id]
      congr 1
      cases spec with
      | mk a b c =>
        simp only at this ⊢
        congr 1
        by_cases hb : b = .named "linear"
        · rw [if_pos hb, if_pos rfl, hb]
        · rw [if_neg hb, if_neg this]
    show ({ m with factors := (switchTranslogToLinear (switchLinearToTranslog m)).factors } : ModelDict α) = m
    rw [this]

theorem smaller_switchLinearToTranslog (m : ModelDict α) : Smaller m (switchLinearToTranslog m) where
  measures := by
    rintro t v f ⟨spec, hs, l, h1, h2⟩
    exact ⟨_, mem_switchTransition.mpr ⟨spec, hs, rfl⟩, l, h1, h2⟩
  anchored := fun f o h => h
  periods := by
    intro t h
    rw [isPeriod_iff_exists] at h ⊢
    obtain ⟨f, spec, hs, ht⟩ := h
    exact ⟨f, _, mem_switchTransition.mpr ⟨spec, hs, rfl⟩, ht⟩
  controls := fun c h => h
  options := rfl
  factors := by
    show List.Sublist _ ((m.factors.map _).map Prod.fst)
    rw [List.map_map]
    exact List.Sublist.refl _
  observed := rfl
  transition := by
    intro f spec hs
    refine ⟨_, mem_switchTransition.mpr ⟨spec, hs, rfl⟩, fun fs name h => ?_⟩
    show HasTransitionParam fs (if spec.transition = .named "linear" then .named "translog" else spec.transition) name
    split
    · rename_i he
      rw [he] at h
      exact linear_param_translog fs name h
    · exact h

/-- **C22** (params): params extended by switch_linear_to_translog have the index of the new model in its order, contain all old labels with their values, and exactly
the new labels have the value 0.05. -/
theorem C22_extended_params [OfScientific α] [Neg α] [Zero α] [One α] [OfNat α 2] [DecidableEq α] {m : ModelDict α} {pm : Processed α} (hm : processModel m = .ok pm)
    {p : ParamsFrame α} (hp : p.index.Nodup) (hall : ∀ l, l ∈ p.index ↔ l ∈ pm.paramsIndex) (hv : ∀ r ∈ p.rows, r.2.value.isSome) :
    ∃ q po, switchLinearToTranslogParams m p = .ok (switchLinearToTranslog m, q) ∧ processModel (switchLinearToTranslog m) = .ok po ∧
      q.index = po.paramsIndex ∧ (∀ l ∈ p.index, l ∈ q.index) ∧
      (∀ l row row', (l, row) ∈ p.rows → (l, row') ∈ q.rows → row'.value = row.value) ∧
      (∀ l row', l ∉ pm.paramsIndex → (l, row') ∈ q.rows → row'.value = some 0.05) := by
  obtain ⟨po, ho⟩ := (C20_edits_keep_models_valid ⟨pm, hm⟩).2.2.2.2.2.2
  have hidx : paramsIndexOfModel (switchLinearToTranslog m) = .ok po.paramsIndex := by
    unfold paramsIndexOfModel
    rw [ho]
    rfl
  refine ⟨{ p with rows := po.paramsIndex.map (fun l =>
      let row : ParamsRow α := ((p.rows.find? (fun r => decide (r.1 = l))).map Prod.snd).getD { value := none }
      (l, { value := some (row.value.getD 0.05)
            lower := if p.hasLower then some (row.lower.getD .negInf) else row.lower
            upper := if p.hasUpper then some (row.upper.getD .posInf) else row.upper : ParamsRow α })) }, po, ?_, ho, ?_, ?_, ?_, ?_⟩
  · exact py_bind_ok.mpr ⟨_, py_bind_ok.mpr ⟨_, hidx, if_pos hp⟩, rfl⟩
  · unfold ParamsFrame.index
    rw [List.map_map]
    exact List.map_id _
  · intro l hl
    rw [hall, C05_index_membership hm] at hl
    have := (smaller_switchLinearToTranslog m).isParam hl
    rw [← C05_index_membership ho] at this
    unfold ParamsFrame.index
    rw [List.map_map]
    exact (List.map_id po.paramsIndex).symm ▸ this
  · intro l row row' h1 h2
    rw [List.mem_map] at h2
    obtain ⟨l', _, he⟩ := h2
    cases he
    rw [find_eq hp h1]
    obtain ⟨x, hx⟩ := Option.isSome_iff_exists.mp (hv _ h1)
    change row.value = some x at hx
    show some (row.value.getD 0.05) = row.value
    rw [hx]
    rfl
  · intro l row' h1 h2
    rw [List.mem_map] at h2
    obtain ⟨l', _, he⟩ := h2
    cases he
    rw [← hall] at h1
    have : p.rows.find? (fun r => decide (r.1 = l)) = none := by
      rw [List.find?_eq_none]
      intro r hr
      rw [decide_eq_true_iff]
      rintro rfl
      exact h1 (List.mem_map.mpr ⟨r, hr, rfl⟩)
    rw [this]
    rfl

/-! ### C23: update_parameter_values -/

/-- `new` is the value of label `l` after the updates: the non-missing value of the last DataFrame that has one, else `old`. -/
def Spec.Updated (others : List (List (Loc × Option α))) (l : Loc) (old new : Option α) : Prop :=
  (∃ (k : Nat) (o : List (Loc × Option α)) (x : α), others[k]? = some o ∧ (l, some x) ∈ o ∧ new = some x ∧
    ∀ (j : Nat) o', k < j → others[j]? = some o' → ∀ y, (l, some y) ∉ o') ∨
  (new = old ∧ ∀ o ∈ others, ∀ y, (l, some y) ∉ o)

theorem lookup_some {other : List (Loc × Option α)} (hn : (other.map Prod.fst).Nodup) {l : Loc} {x : α} :
    (other.find? (fun r => decide (r.1 = l))).bind Prod.snd = some x ↔ (l, some x) ∈ other := by
  induction other with
  | nil => simp
  | cons r rs ih =>
    rw [List.map_cons, List.nodup_cons] at hn
    by_cases h : r.1 = l
    · rw [List.find?_cons_of_pos (by simpa using h)]
      show r.2 = some x ↔ _
      obtain ⟨a, b⟩ := r
      cases h
      rw [List.mem_cons]
      constructor
      · rintro rfl; exact Or.inl rfl
      · rintro (h | h)
        · cases h; rfl
        · exact absurd (List.mem_map.mpr ⟨_, h, rfl⟩) hn.1
    · rw [List.find?_cons_of_neg (by simpa using h), ih hn.2, List.mem_cons]
      constructor
      · exact Or.inr
      · rintro (h' | h')
        · rw [← h'] at h; exact absurd rfl h
        · exact h'

/-- **C23.** If no DataFrame has duplicate labels, the update succeeds, labels, their order and bounds do not change, and values are updated such that later DataFrames win. -/
theorem C23_later_updates_win (p : ParamsFrame α) {others : List (List (Loc × Option α))} (h : ∀ o ∈ others, (o.map Prod.fst).Nodup) :
    ∃ q, updateParameterValues p others = .ok q ∧ q.index = p.index ∧
      ∀ (i : Nat) l row, p.rows[i]? = some (l, row) → ∃ v, q.rows[i]? = some (l, { row with value := v }) ∧ Updated others l row.value v := by
  induction others generalizing p with
  | nil =>
    refine ⟨p, rfl, rfl, fun i l row hr => ⟨row.value, hr, Or.inr ⟨rfl, by simp⟩⟩⟩
  | cons o os ih =>
    have ho := h o List.mem_cons_self
    set p1 : ParamsFrame α := { p with rows := p.rows.map (fun (l, row) =>
      match (o.find? (fun r => decide (r.1 = l))).bind Prod.snd with
      | some x => (l, { row with value := some x })
      | none => (l, row)) } with hp1
    have h1 : updateValues p o = .ok p1 := if_pos ho
    obtain ⟨q, h2, h3, h4⟩ := ih p1 (fun o' ho' => h o' (List.mem_cons_of_mem _ ho'))
    refine ⟨q, ?_, ?_, ?_⟩
    · unfold updateParameterValues at h2 ⊢
      rw [List.foldlM_cons, h1]
      exact h2
    · rw [h3]
      unfold ParamsFrame.index
      rw [hp1, List.map_map]
      refine List.map_congr_left (fun r _ => ?_)
      simp only [Function.comp_def]
      split <;> rfl
    · intro i l row hr
      have hr1 : p1.rows[i]? = some (match (o.find? (fun r => decide (r.1 = l))).bind Prod.snd with
          | some x => (l, { row with value := some x })
          | none => (l, row)) := by
        rw [hp1]
        show (p.rows.map _)[i]? = _
        rw [List.getElem?_map, hr]
        rfl
      cases hx : (o.find? (fun r => decide (r.1 = l))).bind Prod.snd with
      | some x =>
        rw [hx] at hr1
        obtain ⟨v, h5, h6⟩ := h4 i l _ hr1
        refine ⟨v, h5, ?_⟩
        rcases h6 with ⟨k, o', y, e1, e2, e3, e4⟩ | ⟨e1, e2⟩
        · left
          refine ⟨k + 1, o', y, e1, e2, e3, fun j o'' hj ho'' => ?_⟩
          cases j with
          | zero => omega
          | succ j => exact e4 j o'' (by omega) ho''
        · left
          refine ⟨0, o, x, rfl, (lookup_some ho).mp hx, e1, fun j o'' hj ho'' => ?_⟩
          cases j with
          | zero => omega
          | succ j => exact e2 o'' (List.mem_of_getElem? ho'')
      | none =>
        rw [hx] at hr1
        obtain ⟨v, h5, h6⟩ := h4 i l _ hr1
        refine ⟨v, h5, ?_⟩
        rcases h6 with ⟨k, o', y, e1, e2, e3, e4⟩ | ⟨e1, e2⟩
        · left
          refine ⟨k + 1, o', y, e1, e2, e3, fun j o'' hj ho'' => ?_⟩
          cases j with
          | zero => omega
          | succ j => exact e4 j o'' (by omega) ho''
        · right
          refine ⟨e1, fun o' ho' y hy => ?_⟩
          rcases List.mem_cons.mp ho' with rfl | ho'
          · rw [← lookup_some ho, hx] at hy
            cases hy
          · exact e2 o' ho' y hy

/-! ### Non-vacuity -/

namespace Ex

/-- Params for the example model, with values 0, 1, 2, … -/
def params2 : ParamsFrame Rat where
  rows := match processModel model2 with
    | .ok pm => pm.paramsIndex.zipIdx.map (fun (l, i) => (l, { value := some (i : Rat), lower := some .negInf }))
    | .error _ => []
  hasLower := true

theorem model2_accepted : Accepted model2 := by
  have h : (processModel model2).toBool = true := by decide +kernel
  cases hp : processModel model2 with
  | error e => rw [hp] at h; cases h
  | ok pm => exact ⟨pm, hp⟩

/-- C19, C20: the hypotheses hold for the example, for removing fac1 (which is anchored) and for extracting fac3 (which has one period). -/
example : (∀ a, model2.anchoring = some a → a.outcomes.isSome) ∧
    (∃ f spec, (f, spec) ∈ model2.factors ∧ f ∉ ["fac1"] ∧ spec.measurements ≠ []) ∧
    (∃ f spec, (f, spec) ∈ model2.factors ∧ f ∈ ["fac3"] ∧ spec.measurements ≠ []) ∧ model2.controls.isSome := by
  refine ⟨?_, ⟨"fac2", _, List.mem_cons_of_mem _ List.mem_cons_self, by decide, by decide⟩,
    ⟨"fac3", _, List.mem_cons_of_mem _ (List.mem_cons_of_mem _ List.mem_cons_self), by decide, by decide⟩, rfl⟩
  rintro a ⟨⟩
  rfl

example : ∃ pm, processModel model2 = .ok pm ∧ params2.index.Nodup ∧ ∀ l, l ∈ params2.index ↔ l ∈ pm.paramsIndex := by
  obtain ⟨pm, h⟩ := model2_accepted
  have hi : params2.index = pm.paramsIndex := by
    unfold params2 ParamsFrame.index
    rw [h]
    simp only [List.map_map, Function.comp_def]
    exact List.zipIdx_map_fst 0 pm.paramsIndex
  exact ⟨pm, h, by decide +kernel, fun l => by rw [hi]⟩

/-- Extracting fac3 removes the anchoring section and all but the first period; fac1 is the only anchored factor. -/
example : (extractFactorsParams ["fac3"] model2 params2).map (fun r => (r.1.anchoring, r.1.stagemap, Dict.keys r.1.factors, r.2.rows.length)) =
    .ok (none, some [], ["fac3"], 14) := by decide +kernel

example : (removeMeasurementsParams ["y1"] model2 params2).toBool = true ∧ (removeControlsParams ["x1"] model2 params2).toBool = true ∧
    (reduceNPeriodsParams model2 2 params2).toBool = true ∧ (switchTranslogToLinearParams model2 params2).toBool = true := by decide +kernel

/-- C23: two overlapping updates, the second one has a missing value. -/
example : (updateParameterValues (α := Rat) ⟨[(⟨.measSds, 0, "y1", "-"⟩, ⟨some 1, none, none⟩), (⟨.measSds, 0, "y2", "-"⟩, ⟨some 2, none, none⟩), (⟨.measSds, 0, "y3", "-"⟩, ⟨some 3, none, none⟩)], false, false⟩
    [[(⟨.measSds, 0, "y2", "-"⟩, some 7), (⟨.measSds, 0, "y1", "-"⟩, some 5)], [(⟨.measSds, 0, "y1", "-"⟩, some 8), (⟨.measSds, 0, "y2", "-"⟩, none)]]).map (fun p => p.rows.map (fun r => r.2.value)) =
    .ok [some 8, some 7, some 3] := by decide +kernel

/-- C21: the sequence of removals. -/
example : (removeFactors ["fac1"] model2 >>= removeFactors ["fac2"]) = removeFactors ["fac2", "fac1"] model2 :=
  C21_remove_factors model2 (by simp) ⟨"fac3", _, List.mem_cons_of_mem _ (List.mem_cons_of_mem _ List.mem_cons_self), by decide, by decide⟩

end Ex

end Skill
