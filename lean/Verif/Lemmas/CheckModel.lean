import Verif.Lemmas.ProcessModel
import Verif.Spec.Consistent
/-
Lemmas on check_model.
-/
namespace Skill
open Spec
variable {α : Type}

theorem mem_insertUniq (x y : Int) (l : List Int) : y ∈ insertUniq x l ↔ y = x ∨ y ∈ l := by
  induction l with
  | nil => simp [insertUniq]
  | cons z zs ih =>
    simp only [insertUniq]
    split
    · simp
    · split
      · rename_i h; subst h; simp
      · simp only [List.mem_cons, ih]; tauto

theorem mem_npUnique (y : Int) (l : List Int) : y ∈ npUnique l ↔ y ∈ l := by
  induction l with
  | nil => simp [npUnique]
  | cons z zs ih =>
    have : npUnique (z :: zs) = insertUniq z (npUnique zs) := rfl
    rw [this, mem_insertUniq, ih, List.mem_cons]

theorem sorted_insertUniq (x : Int) (l : List Int) (h : l.Pairwise (· < ·)) :
    (insertUniq x l).Pairwise (· < ·) := by
  induction l with
  | nil => simp [insertUniq]
  | cons z zs ih =>
    rw [List.pairwise_cons] at h
    simp only [insertUniq]
    split
    · rename_i hx
      rw [List.pairwise_cons]
      refine ⟨?_, List.pairwise_cons.mpr h⟩
      intro a ha
      rcases List.mem_cons.mp ha with rfl | ha
      · exact hx
      · exact lt_trans hx (h.1 a ha)
    · split
      · exact List.pairwise_cons.mpr h
      · rename_i h1 h2
        rw [List.pairwise_cons]
        refine ⟨?_, ih h.2⟩
        intro a ha
        rcases (mem_insertUniq x a zs).mp ha with rfl | ha
        · omega
        · exact h.1 a ha

theorem sorted_npUnique (l : List Int) : (npUnique l).Pairwise (· < ·) := by
  induction l with
  | nil => simp [npUnique]
  | cons z zs ih => exact sorted_insertUniq z _ ih

theorem sorted_range_int (n : Nat) : ((List.range n).map Int.ofNat).Pairwise (· < ·) := by
  rw [List.pairwise_map]
  exact List.pairwise_lt_range.imp (fun h => by simpa using h)

/-- Strictly sorted lists with the same members are equal. -/
theorem sorted_ext {l1 l2 : List Int} (h1 : l1.Pairwise (· < ·)) (h2 : l2.Pairwise (· < ·))
    (h : ∀ x, x ∈ l1 ↔ x ∈ l2) : l1 = l2 := by
  have p : l1.Perm l2 := (List.perm_ext_iff_of_nodup (h1.imp (fun h => ne_of_lt h)) (h2.imp (fun h => ne_of_lt h))).mpr h
  exact p.eq_of_pairwise (le := (· < ·)) (fun a b _ _ hab hba => absurd hab (by omega)) h1 h2

theorem stages_eq_range_iff (sm : List Int) :
    npUnique sm = (List.range (npUnique sm).length).map Int.ofNat ↔
      ∃ S : Nat, ∀ s : Int, s ∈ sm ↔ 0 ≤ s ∧ s < S := by
  have hr : ∀ (S : Nat) (s : Int), s ∈ (List.range S).map Int.ofNat ↔ 0 ≤ s ∧ s < S := by
    intro S s
    simp only [List.mem_map, List.mem_range]
    constructor
    · rintro ⟨k, hk, rfl⟩
      exact ⟨Int.natCast_nonneg k, by simpa using hk⟩
    · rintro ⟨h1, h2⟩
      exact ⟨s.toNat, by omega, by simp [Int.toNat_of_nonneg h1]⟩
  constructor
  · intro h
    refine ⟨(npUnique sm).length, ?_⟩
    intro s
    rw [← mem_npUnique, h, hr]
    simp
  · rintro ⟨S, hS⟩
    have e : npUnique sm = (List.range S).map Int.ofNat := by
      apply sorted_ext (sorted_npUnique _) (sorted_range_int S)
      intro x
      rw [mem_npUnique, hS, hr]
    rw [e]; simp

theorem steps_iff (sm : List Int) :
    ((List.zipWith (fun a b => a - b) (sm.drop 1) sm.dropLast).all
        (fun x => decide (x = 0 ∨ x = 1))) = true ↔
      ∀ i a b, sm[i]? = some a → sm[i + 1]? = some b → b = a ∨ b = a + 1 := by
  rw [List.all_eq_true]
  constructor
  · intro h i a b ha hb
    have hl : i + 1 < sm.length := by
      by_contra hc
      rw [List.getElem?_eq_none (by omega)] at hb; cases hb
    have hx : (List.zipWith (fun a b => a - b) (sm.drop 1) sm.dropLast)[i]? = some (b - a) := by
      rw [List.getElem?_zipWith_eq_some]
      refine ⟨b, a, ?_, ?_, rfl⟩
      · rw [List.getElem?_drop, Nat.add_comm]; exact hb
      · rw [List.getElem?_dropLast]; simp only [ha]; simp; omega
    have := h _ (List.mem_of_getElem? hx)
    rw [decide_eq_true_eq] at this
    omega
  · intro h x hx
    obtain ⟨i, hi⟩ := List.mem_iff_getElem?.mp hx
    rw [List.getElem?_zipWith_eq_some] at hi
    obtain ⟨b, a, hb, ha, rfl⟩ := hi
    rw [List.getElem?_drop, Nat.add_comm] at hb
    rw [List.getElem?_dropLast] at ha
    split at ha
    · have := h i a b ha hb
      rw [decide_eq_true_eq]; omega
    · cases ha

theorem checkStagemap_nil_iff (sm : List Int) (n : Nat) :
    checkStagemap sm (npUnique sm) n = [] ↔ ValidStagemap sm n := by
  unfold checkStagemap
  rw [List.append_eq_nil_iff, List.append_eq_nil_iff]
  simp only [ite_eq_right_iff, List.cons_ne_nil, imp_false, not_not]
  rw [stages_eq_range_iff]
  constructor
  · rintro ⟨⟨h1, h2⟩, h3⟩
    exact ⟨by omega, h2, (steps_iff sm).mp h3⟩
  · rintro ⟨h1, h2, h3⟩
    exact ⟨⟨by omega, h2⟩, (steps_iff sm).mpr h3⟩

theorem validStagemap_default (n : Nat) (hn : 1 ≤ n) :
    ValidStagemap ((List.range (n - 1)).map Int.ofNat) n := by
  refine ⟨by simp; omega, ⟨n - 1, ?_⟩, ?_⟩
  · intro s
    simp only [List.mem_map, List.mem_range]
    constructor
    · rintro ⟨k, hk, rfl⟩
      exact ⟨Int.natCast_nonneg k, by simpa using hk⟩
    · rintro ⟨h1, h2⟩
      exact ⟨s.toNat, by omega, by simp [Int.toNat_of_nonneg h1]⟩
  · intro i a b ha hb
    simp only [List.getElem?_map, Option.map_eq_some_iff] at ha hb
    obtain ⟨k, hk, rfl⟩ := ha
    obtain ⟨k', hk', rfl⟩ := hb
    have e1 := List.getElem?_eq_some_iff.mp hk
    have e2 := List.getElem?_eq_some_iff.mp hk'
    obtain ⟨_, e1⟩ := e1
    obtain ⟨_, e2⟩ := e2
    simp only [List.getElem_range] at e1 e2
    right; subst e1; subst e2; simp

theorem checkPresent_ok_nil_iff (norm : List (Dict α)) (ms : List (List String)) :
    checkNormalizedVariablesArePresent norm ms = .ok [] ↔
      ∀ (t : Nat) d v x, norm[t]? = some d → (v, x) ∈ d → ∃ l, ms[t]? = some l ∧ v ∈ l := by
  unfold checkNormalizedVariablesArePresent
  constructor
  · intro h t d v x hd hv
    obtain ⟨reports, hr, h⟩ := py_bind_ok.mp h
    have h : (reports.map List.flatten).flatten = [] := py_pure_ok.mp h
    · rw [mapM_ok_iff] at hr
      have hz : norm.zipIdx[t]? = some (d, t) := by
        rw [List.getElem?_zipIdx, hd]; simp
      obtain ⟨rep, hrep, h2⟩ := forall₂_getElem? hr hz
      simp only at h2
      rw [mapM_ok_iff] at h2
      have hflat : rep.flatten = [] := by
        rw [List.flatten_eq_nil_iff] at h
        exact h _ (List.mem_map.mpr ⟨rep, List.mem_of_getElem? hrep, rfl⟩)
      obtain ⟨q, hq, h3⟩ := forall₂_mem h2 hv
      simp only at h3
      cases hidx : ms[t]? with
      | none => simp [pyIndex, hidx, bind, Except.bind] at h3
      | some l =>
        refine ⟨l, rfl, ?_⟩
        simp only [pyIndex, hidx, bind, Except.bind, pure, Except.pure, Except.ok.injEq] at h3
        rw [List.flatten_eq_nil_iff] at hflat
        have h4 := hflat _ hq
        rw [← h3] at h4
        by_contra hc
        simp [hc] at h4
  · intro h
    rw [mapM_pure_ok _ (fun nt => nt.1.map (fun _ => []))]
    · simp
    · rintro ⟨d, t⟩ hdt
      rw [List.mem_zipIdx_iff_getElem?] at hdt
      apply mapM_pure_ok
      rintro ⟨v, x⟩ hvx
      obtain ⟨l, hl, hv⟩ := h t d v x hdt hvx
      simp only [pyIndex, hl, bind, Except.bind, pure, Except.pure]
      simp [hv]

theorem checkLoadingsNotZero_nil_iff [Zero α] [DecidableEq α] (norm : List (Dict α)) :
    checkLoadingsNotZero norm = [] ↔ ∀ (t : Nat) d v x, norm[t]? = some d → (v, x) ∈ d → x ≠ 0 := by
  unfold checkLoadingsNotZero
  rw [List.flatMap_eq_nil_iff]
  constructor
  · intro h t d v x hd hv
    have := h d (List.mem_of_getElem? hd)
    rw [List.flatMap_eq_nil_iff] at this
    have := this _ hv
    by_contra hc
    simp [hc] at this
  · intro h d hd
    obtain ⟨t, ht⟩ := List.mem_iff_getElem?.mp hd
    rw [List.flatMap_eq_nil_iff]
    rintro ⟨v, x⟩ hv
    simp [h t d v x ht hv]

theorem loadings_getD {spec : FactorSpec α} {t v x} :
    (∃ d, ((spec.normalizations.getD {}).loadings.getD [])[t]? = some d ∧ (v, x) ∈ d) ↔
      LoadingNorm spec t v x := by
  unfold LoadingNorm
  cases h : spec.normalizations with
  | none => simp
  | some ns =>
    cases h' : ns.loadings with
    | none => simp [h']
    | some ls => simp [h']

theorem intercepts_getD {spec : FactorSpec α} {t v x} :
    (∃ d, ((spec.normalizations.getD {}).intercepts.getD [])[t]? = some d ∧ (v, x) ∈ d) ↔
      InterceptNorm spec t v x := by
  unfold InterceptNorm
  cases h : spec.normalizations with
  | none => simp
  | some ns =>
    cases h' : ns.intercepts with
    | none => simp [h']
    | some ls => simp [h']

theorem checkNormalizations_ok_nil_iff [Zero α] [DecidableEq α] (m : ModelDict α) :
    checkNormalizations m = .ok [] ↔
      (∀ f spec t v x, (f, spec) ∈ m.factors → LoadingNorm spec t v x →
        x ≠ 0 ∧ ∃ ms, spec.measurements[t]? = some ms ∧ v ∈ ms) ∧
      (∀ f spec t v x, (f, spec) ∈ m.factors → InterceptNorm spec t v x →
        ∃ ms, spec.measurements[t]? = some ms ∧ v ∈ ms) := by
  unfold checkNormalizations
  constructor
  · intro h
    obtain ⟨reports, hr, h⟩ := py_bind_ok.mp h
    have h : reports.flatten = [] := py_pure_ok.mp h
    · rw [mapM_ok_iff] at hr
      have key : ∀ f spec, (f, spec) ∈ m.factors →
          checkNormalizedVariablesArePresent ((spec.normalizations.getD {}).loadings.getD []) spec.measurements = .ok []
          ∧ checkLoadingsNotZero ((spec.normalizations.getD {}).loadings.getD []) = []
          ∧ checkNormalizedVariablesArePresent ((spec.normalizations.getD {}).intercepts.getD []) spec.measurements = .ok [] := by
        intro f spec hmem
        obtain ⟨q, hq, h2⟩ := forall₂_mem hr hmem
        simp only at h2
        have hnil : q = [] := by
          rw [List.flatten_eq_nil_iff] at h
          exact h _ hq
        rw [hnil] at h2
        cases h3 : checkNormalizedVariablesArePresent ((spec.normalizations.getD {}).loadings.getD []) spec.measurements with
        | error e => simp only [h3, bind, Except.bind] at h2; cases h2
        | ok r1 =>
          cases h4 : checkNormalizedVariablesArePresent ((spec.normalizations.getD {}).intercepts.getD []) spec.measurements with
          | error e => simp only [h3, h4, bind, Except.bind] at h2; cases h2
          | ok r3 =>
            simp only [h3, h4, bind, Except.bind, pure, Except.pure, Except.ok.injEq,
              List.append_eq_nil_iff] at h2
            obtain ⟨⟨rfl, h5⟩, rfl⟩ := h2
            exact ⟨rfl, h5, rfl⟩
      constructor
      · intro f spec t v x hmem hL
        obtain ⟨d, hd, hv⟩ := loadings_getD.mpr hL
        obtain ⟨k1, k2, _⟩ := key f spec hmem
        exact ⟨(checkLoadingsNotZero_nil_iff _).mp k2 t d v x hd hv,
          (checkPresent_ok_nil_iff _ _).mp k1 t d v x hd hv⟩
      · intro f spec t v x hmem hL
        obtain ⟨d, hd, hv⟩ := intercepts_getD.mpr hL
        obtain ⟨_, _, k3⟩ := key f spec hmem
        exact (checkPresent_ok_nil_iff _ _).mp k3 t d v x hd hv
  · rintro ⟨h1, h2⟩
    rw [mapM_pure_ok _ (fun _ => [])]
    · show Except.ok _ = Except.ok _
      congr 1
      rw [List.flatten_eq_nil_iff]
      simp
    · rintro ⟨f, spec⟩ hmem
      have k1 : checkNormalizedVariablesArePresent ((spec.normalizations.getD {}).loadings.getD []) spec.measurements = .ok [] :=
        (checkPresent_ok_nil_iff _ _).mpr (fun t d v x hd hv =>
          (h1 f spec t v x hmem (loadings_getD.mp ⟨d, hd, hv⟩)).2)
      have k2 : checkLoadingsNotZero ((spec.normalizations.getD {}).loadings.getD []) = [] :=
        (checkLoadingsNotZero_nil_iff _).mpr (fun t d v x hd hv =>
          (h1 f spec t v x hmem (loadings_getD.mp ⟨d, hd, hv⟩)).1)
      have k3 : checkNormalizedVariablesArePresent ((spec.normalizations.getD {}).intercepts.getD []) spec.measurements = .ok [] :=
        (checkPresent_ok_nil_iff _ _).mpr (fun t d v x hd hv =>
          h2 f spec t v x hmem (intercepts_getD.mp ⟨d, hd, hv⟩))
      simp only [k1, k2, k3]
      rfl

theorem checkModel_ok_iff [Zero α] [DecidableEq α] {m : ModelDict α} {d : Dimensions}
    (hn : IsNPeriods m d.nPeriods) :
    checkModel m (getLabels m d) d = .ok () ↔ Consistent m := by
  have hst : checkStagemap (getLabels m d).stagemap (getLabels m d).stages d.nPeriods = [] ↔
      (1 ≤ d.nPeriods ∧ ∀ sm, m.stagemap = some sm → ValidStagemap sm d.nPeriods) := by
    have : (getLabels m d).stages = npUnique (getLabels m d).stagemap := rfl
    rw [this, checkStagemap_nil_iff]
    cases h : m.stagemap with
    | none =>
      have e : (getLabels m d).stagemap = (List.range (d.nPeriods - 1)).map Int.ofNat := by
        simp [getLabels, h]
      rw [e]
      constructor
      · intro hv
        have := hv.length
        exact ⟨by omega, by simp⟩
      · rintro ⟨h1, _⟩
        exact validStagemap_default _ h1
    | some sm =>
      have e : (getLabels m d).stagemap = sm := by simp [getLabels, h]
      rw [e]
      constructor
      · intro hv
        exact ⟨by have := hv.length; omega, by rintro _ ⟨⟩; exact hv⟩
      · rintro ⟨_, h2⟩; exact h2 sm rfl
  have hcons : Consistent m ↔ ((1 ≤ d.nPeriods ∧ ∀ sm, m.stagemap = some sm → ValidStagemap sm d.nPeriods)
      ∧ checkNormalizations m = .ok []) := by
    rw [checkNormalizations_ok_nil_iff]
    constructor
    · rintro ⟨a, b, c, e⟩
      exact ⟨⟨a _ hn, fun sm h => b _ sm hn h⟩, c, e⟩
    · rintro ⟨⟨a, b⟩, c, e⟩
      refine ⟨?_, ?_, c, e⟩
      · intro n h; rw [← IsNPeriods.unique hn h]; exact a
      · intro n sm h hs; rw [← IsNPeriods.unique hn h]; exact b sm hs
  rw [hcons, ← hst]
  unfold checkModel
  cases hc : checkNormalizations m with
  | error e => simp [bind, Except.bind]
  | ok r2 =>
    simp only [bind, Except.bind]
    split
    · rename_i h
      constructor
      · intro h'; cases h'
      · rintro ⟨h1, h2⟩
        exfalso; apply h
        rw [h1, Except.ok.inj h2]; rfl
    · rename_i h
      rw [not_not, List.append_eq_nil_iff] at h
      exact ⟨fun _ => ⟨h.1, by rw [h.2]⟩, fun _ => rfl⟩

end Skill
