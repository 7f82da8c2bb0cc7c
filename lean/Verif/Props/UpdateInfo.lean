import Verif.Lemmas.ProcessModel
import Verif.Examples.Models
/-
C01: update_info has exactly one row per Kalman update.
-/
namespace Skill
open Spec
variable {α : Type}

theorem mem_updateAssignments {periods : List Nat} {ms : Dict (List (List String))}
    {outs : Dict String} {s : UAssign} :
    s ∈ updateAssignments periods ms outs ↔
      s.period ∈ periods ∧
      ((s.purpose = .measurement ∧ ∃ l, (s.factor, l) ∈ ms ∧ s.var ∈ l.getD s.period []) ∨
       (s.purpose = .anchoring ∧ ∃ o, (s.factor, o) ∈ outs ∧ s.var = anchoringName o s.factor)) := by
  unfold updateAssignments
  simp only [List.mem_flatMap, List.mem_append, List.mem_map]
  constructor
  · rintro ⟨p, hp, ⟨⟨f, l⟩, hfl, v, hv, rfl⟩ | ⟨⟨f, o⟩, hfo, rfl⟩⟩
    · exact ⟨hp, Or.inl ⟨rfl, l, hfl, hv⟩⟩
    · exact ⟨hp, Or.inr ⟨rfl, o, hfo, rfl⟩⟩
  · rintro ⟨hp, ⟨h1, l, hl, hv⟩ | ⟨h1, o, ho, hv⟩⟩
    · refine ⟨s.period, hp, Or.inl ⟨(s.factor, l), hl, s.var, hv, ?_⟩⟩
      cases s; simp_all
    · refine ⟨s.period, hp, Or.inr ⟨(s.factor, o), ho, ?_⟩⟩
      cases s; simp_all

theorem updateAssignments_sorted {periods : List Nat} {ms : Dict (List (List String))}
    {outs : Dict String} (hp : periods.Pairwise (· ≤ ·)) :
    (updateAssignments periods ms outs).Pairwise (fun s q => s.period ≤ q.period) := by
  unfold updateAssignments
  rw [List.pairwise_flatMap]
  refine ⟨?_, ?_⟩
  · intro p _
    refine List.pairwise_of_forall_mem_list ?_
    intro a ha b hb
    have key : ∀ x ∈ (ms.flatMap (fun (factor, ms) =>
        (ms.getD p []).map (fun meas => (⟨p, meas, factor, .measurement⟩ : UAssign)))
        ++ outs.map (fun (factor, outcome) => ⟨p, anchoringName outcome factor, factor, .anchoring⟩)),
        x.period = p := by
      intro x hx
      simp only [List.mem_append, List.mem_flatMap, List.mem_map] at hx
      rcases hx with ⟨_, _, _, _, rfl⟩ | ⟨_, _, rfl⟩ <;> rfl
    rw [key a ha, key b hb]
  · refine hp.imp ?_
    intro p q hpq x hx y hy
    simp only [List.mem_append, List.mem_flatMap, List.mem_map] at hx hy
    have e1 : x.period = p := by rcases hx with ⟨_, _, _, _, rfl⟩ | ⟨_, _, rfl⟩ <;> rfl
    have e2 : y.period = q := by rcases hy with ⟨_, _, _, _, rfl⟩ | ⟨_, _, rfl⟩ <;> rfl
    omega

/-- Within one key, anchoring assignments come after measurement assignments. -/
theorem updateAssignments_anch_last {periods : List Nat} {ms : Dict (List (List String))}
    {outs : Dict String} (hp : periods.Pairwise (· < ·)) :
    (updateAssignments periods ms outs).Pairwise
      (fun s q => s.period = q.period → s.purpose = .anchoring → q.purpose = .anchoring) := by
  unfold updateAssignments
  rw [List.pairwise_flatMap]
  refine ⟨?_, ?_⟩
  · intro p _
    rw [List.pairwise_append]
    refine ⟨?_, ?_, ?_⟩
    · refine List.pairwise_of_forall_mem_list ?_
      intro a ha b hb _ h
      simp only [List.mem_flatMap, List.mem_map] at ha
      obtain ⟨_, _, _, _, rfl⟩ := ha
      cases h
    · refine List.pairwise_of_forall_mem_list ?_
      intro a ha b hb _ h
      simp only [List.mem_map] at hb
      obtain ⟨_, _, rfl⟩ := hb
      rfl
    · intro a ha b hb _ h
      simp only [List.mem_map] at hb
      obtain ⟨_, _, rfl⟩ := hb
      rfl
  · refine hp.imp ?_
    intro p q hpq x hx y hy he
    simp only [List.mem_append, List.mem_flatMap, List.mem_map] at hx hy
    have e1 : x.period = p := by rcases hx with ⟨_, _, _, _, rfl⟩ | ⟨_, _, rfl⟩ <;> rfl
    have e2 : y.period = q := by rcases hy with ⟨_, _, _, _, rfl⟩ | ⟨_, _, rfl⟩ <;> rfl
    omega

theorem mem_outcomes_iff {m : ModelDict α} {f o : String} :
    (f, o) ∈ (processAnchoring m).outcomes ↔ AnchoredIn m f o := by
  unfold processAnchoring AnchoredIn
  cases h : m.anchoring with
  | none => simp
  | some a =>
    cases h' : a.outcomes with
    | none => simp [h']
    | some os => simp [h']

theorem mem_factors_meas_iff {m : ModelDict α} {t v f} :
    (∃ l, (f, l) ∈ (m.factors.map (fun fs => (fs.1, fs.2.measurements))) ∧ v ∈ l.getD t [])
      ↔ Measures m t v f := by
  unfold Measures
  constructor
  · rintro ⟨l, hl, hv⟩
    simp only [List.mem_map, Prod.mk.injEq] at hl
    obtain ⟨⟨f', spec⟩, hmem, rfl, rfl⟩ := hl
    refine ⟨spec, hmem, ?_⟩
    rw [List.getD_eq_getElem?_getD] at hv
    cases h : spec.measurements[t]? with
    | none => simp [h] at hv
    | some ms => exact ⟨ms, rfl, by simpa [h] using hv⟩
  · rintro ⟨spec, hmem, ms, hms, hv⟩
    refine ⟨spec.measurements, List.mem_map.mpr ⟨(f, spec), hmem, rfl⟩, ?_⟩
    rw [List.getD_eq_getElem?_getD, hms]
    exact hv

theorem measures_lt {m : ModelDict α} {n t v f} (hn : IsNPeriods m n) (h : Measures m t v f) : t < n := by
  obtain ⟨spec, hmem, ms, hms, _⟩ := h
  have := hn.2 _ _ hmem
  have : t < spec.measurements.length := by
    by_contra hc
    rw [List.getElem?_eq_none (by omega)] at hms
    cases hms
  omega

section
variable [OfScientific α] [Neg α] [Zero α] [One α] [OfNat α 2] [DecidableEq α]

theorem processModel_updateInfo {m : ModelDict α} {pm : Processed α} (h : processModel m = .ok pm) :
    ∃ n, IsNPeriods m n ∧ pm.dimensions.nPeriods = n ∧ pm.updateInfo =
      buildRows (updateAssignments (List.range n)
        (m.factors.map (fun fs => (fs.1, fs.2.measurements))) (processAnchoring m).outcomes) := by
  rw [processModel_ok_iff] at h
  obtain ⟨hd, _, _, hl, ha, _, hu, _⟩ := h
  obtain ⟨o, n, _, hn, he⟩ := getDimensions_ok hd
  have hnp : pm.dimensions.nPeriods = n := by rw [he]
  refine ⟨n, hn, hnp, ?_⟩
  rw [getUpdateInfo_ok (by rw [hnp]; exact hn)] at hu
  rw [Except.ok.injEq] at hu
  rw [← hu, hl, ha]
  simp only [getLabels, hnp]

/-- **C01.** For every accepted model: the index of update_info has no duplicates, contains exactly
the (period, variable) pairs that need a Kalman update, is sorted by period; the True columns of a
row are exactly the factors that the variable measures or anchors in that period; and the purpose
is "anchoring" exactly for anchoring equations. -/
theorem C01_update_info_exact {m : ModelDict α} {pm : Processed α} (h : processModel m = .ok pm) :
    (pm.updateInfo.map (fun r => (r.period, r.var))).Nodup ∧
    (∀ t v, (∃ r ∈ pm.updateInfo, r.period = t ∧ r.var = v) ↔ IsUpdate m t v) ∧
    pm.updateInfo.Pairwise (fun r q => r.period ≤ q.period) ∧
    (∀ r ∈ pm.updateInfo, ∀ f, f ∈ r.trueCols ↔ Measures m r.period r.var f ∨ Anchors m r.var f) ∧
    (∀ r ∈ pm.updateInfo, r.purpose = .anchoring ↔ ∃ f, Anchors m r.var f) := by
  obtain ⟨n, hn, -, hu⟩ := processModel_updateInfo h
  have hmem : ∀ s, s ∈ updateAssignments (List.range n)
        (m.factors.map (fun fs => (fs.1, fs.2.measurements))) (processAnchoring m).outcomes ↔
        s.period < n ∧ ((s.purpose = .measurement ∧ Measures m s.period s.var s.factor) ∨
          (s.purpose = .anchoring ∧ Anchors m s.var s.factor)) := by
    intro s
    rw [mem_updateAssignments, List.mem_range, mem_factors_meas_iff]
    simp only [mem_outcomes_iff, Anchors, anchoringName]
  have hkey : ∀ t v, (t, v) ∈ pm.updateInfo.map URow.key ↔ IsUpdate m t v := by
    intro t v
    rw [hu, mem_buildRows_keys, List.mem_map]
    constructor
    · rintro ⟨s, hs, hk⟩
      rw [hmem] at hs
      simp only [UAssign.key, Prod.mk.injEq] at hk
      obtain ⟨rfl, rfl⟩ := hk
      rcases hs with ⟨hlt, ⟨_, hM⟩ | ⟨_, hA⟩⟩
      · exact Or.inl ⟨_, hM⟩
      · exact Or.inr ⟨⟨n, hn, hlt⟩, _, hA⟩
    · rintro (⟨f, hM⟩ | ⟨⟨n', hn', hlt⟩, f, hA⟩)
      · exact ⟨⟨t, v, f, .measurement⟩, (hmem _).mpr ⟨measures_lt hn hM, Or.inl ⟨rfl, hM⟩⟩, rfl⟩
      · rw [IsNPeriods.unique hn' hn] at hlt
        exact ⟨⟨t, v, f, .anchoring⟩, (hmem _).mpr ⟨hlt, Or.inr ⟨rfl, hA⟩⟩, rfl⟩
  have hper : ∀ r ∈ pm.updateInfo, IsPeriod m r.period := by
    intro r hr
    have := (hkey r.period r.var).mp (List.mem_map.mpr ⟨r, hr, rfl⟩)
    rcases this with ⟨f, hM⟩ | ⟨h, _⟩
    · exact ⟨n, hn, measures_lt hn hM⟩
    · exact h
  have hlt : ∀ r ∈ pm.updateInfo, r.period < n := by
    intro r hr
    obtain ⟨n', hn', h⟩ := hper r hr
    rwa [IsNPeriods.unique hn' hn] at h
  refine ⟨?_, ?_, ?_, ?_, ?_⟩
  · have := buildRows_nodup (updateAssignments (List.range n)
        (m.factors.map (fun fs => (fs.1, fs.2.measurements))) (processAnchoring m).outcomes)
    rw [← hu] at this
    exact this
  · intro t v
    rw [← hkey, List.mem_map]
    simp [URow.key]
  · have hs := buildRows_keys_sublist (updateAssignments (List.range n)
        (m.factors.map (fun fs => (fs.1, fs.2.measurements))) (processAnchoring m).outcomes)
    rw [← hu] at hs
    have hsort := updateAssignments_sorted (periods := List.range n)
      (ms := m.factors.map (fun fs => (fs.1, fs.2.measurements)))
      (outs := (processAnchoring m).outcomes) (List.pairwise_le_range)
    have h1 : ((updateAssignments (List.range n)
        (m.factors.map (fun fs => (fs.1, fs.2.measurements))) (processAnchoring m).outcomes).map
        UAssign.key).Pairwise (fun a b => a.1 ≤ b.1) := by
      rw [List.pairwise_map]; exact hsort
    have h2 := h1.sublist hs
    rw [List.pairwise_map] at h2
    exact h2
  · intro r hr f
    have hr' := hr
    rw [hu] at hr'
    rw [buildRows_trueCols _ hr' f]
    constructor
    · rintro ⟨s, hs, hk, rfl⟩
      rw [hmem] at hs
      simp only [UAssign.key, URow.key, Prod.mk.injEq] at hk
      rw [← hk.1, ← hk.2]
      rcases hs with ⟨_, ⟨_, h⟩ | ⟨_, h⟩⟩
      · exact Or.inl h
      · exact Or.inr h
    · rintro (h | h)
      · exact ⟨⟨r.period, r.var, f, .measurement⟩, (hmem _).mpr ⟨hlt r hr, Or.inl ⟨rfl, h⟩⟩, rfl, rfl⟩
      · exact ⟨⟨r.period, r.var, f, .anchoring⟩, (hmem _).mpr ⟨hlt r hr, Or.inr ⟨rfl, h⟩⟩, rfl, rfl⟩
  · intro r hr
    have hr' := hr
    rw [hu] at hr'
    obtain ⟨pre, s, post, heq, hk, hp, hpost⟩ := buildRows_purpose _ hr'
    have hs : s ∈ updateAssignments (List.range n)
        (m.factors.map (fun fs => (fs.1, fs.2.measurements))) (processAnchoring m).outcomes := by
      rw [heq]; simp
    have hs' := (hmem s).mp hs
    simp only [UAssign.key, URow.key, Prod.mk.injEq] at hk
    constructor
    · intro h
      rcases hs' with ⟨_, ⟨h1, _⟩ | ⟨_, h1⟩⟩
      · rw [hp, h] at h1; cases h1
      · exact ⟨s.factor, by rw [← hk.2]; exact h1⟩
    · rintro ⟨f, hA⟩
      have hq : (⟨r.period, r.var, f, .anchoring⟩ : UAssign) ∈ updateAssignments (List.range n)
        (m.factors.map (fun fs => (fs.1, fs.2.measurements))) (processAnchoring m).outcomes :=
        (hmem _).mpr ⟨hlt r hr, Or.inr ⟨rfl, hA⟩⟩
      have hord := updateAssignments_anch_last (periods := List.range n)
        (ms := m.factors.map (fun fs => (fs.1, fs.2.measurements)))
        (outs := (processAnchoring m).outcomes) (List.pairwise_lt_range)
      rw [heq] at hq hord
      rw [List.pairwise_append] at hord
      rcases List.mem_append.mp hq with hq | hq
      · have := hord.2.2 _ hq s (by simp) hk.1.symm rfl
        rw [← hp]; exact this
      · rcases List.mem_cons.mp hq with hq | hq
        · rw [← hp, ← hq]
        · exact absurd rfl (hpost _ hq)

end

/-- Non-vacuity of C01: the example model (shared measurement y2 in period 2, anchoring, a factor
without measurements in later periods) is accepted and has 19 updates. -/
example : ∃ pm, processModel Ex.model2 = .ok pm ∧ pm.updateInfo.length = 19 := by
  have h : (processModel Ex.model2).map (fun p => p.updateInfo.length) = .ok 19 := by decide +kernel
  cases hp : processModel Ex.model2 with
  | error e => rw [hp] at h; cases h
  | ok pm => rw [hp] at h; exact ⟨pm, rfl, by simpa [Except.map] using h⟩

end Skill
