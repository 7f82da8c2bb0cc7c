import Verif.Lemmas.CheckModel
import Verif.Spec.Params
import Verif.Props.UpdateInfo
/-
Lemmas on params_index.
-/
namespace Skill
open Spec
variable {α : Type}

theorem natToString_inj {a b : Nat} (h : toString a = toString b) : a = b := by
  have h1 : Nat.toDigits 10 a = Nat.toDigits 10 b := by
    have : String.ofList (Nat.toDigits 10 a) = String.ofList (Nat.toDigits 10 b) := h
    exact String.ofList_injective this
  have := congrArg (fun l => Nat.ofDigitChars 10 l 0) h1
  simpa [Nat.ofDigitChars_toDigits] using this

theorem string_append_left_inj {a b c : String} (h : a ++ b = a ++ c) : b = c := by
  rw [← String.toList_inj] at h ⊢
  rw [String.toList_append, String.toList_append] at h
  exact List.append_cancel_left h

theorem string_append_right_inj {a b c : String} (h : a ++ c = b ++ c) : a = b := by
  rw [← String.toList_inj] at h ⊢
  rw [String.toList_append, String.toList_append] at h
  exact List.append_cancel_right h

theorem mixtureName_inj {a b : Nat} (h : mixtureName a = mixtureName b) : a = b :=
  natToString_inj (string_append_left_inj h)

/-- A separator character that does not occur in the names makes the concatenation injective. -/
theorem sep_inj {c : Char} {a b x y : List Char} (ha : c ∉ a) (hb : c ∉ b)
    (h : a ++ c :: x = b ++ c :: y) : a = b ∧ x = y := by
  induction a generalizing b with
  | nil =>
    cases b with
    | nil => simpa using h
    | cons b bs => simp only [List.nil_append, List.cons_append, List.cons.injEq] at h
                   exact absurd (by simp [h.1]) hb
  | cons a as ih =>
    cases b with
    | nil => simp only [List.nil_append, List.cons_append, List.cons.injEq] at h
             exact absurd (by simp [h.1]) ha
    | cons b bs =>
      simp only [List.cons_append, List.cons.injEq] at h
      have := ih (b := bs) (fun hc => ha (List.mem_cons_of_mem _ hc))
        (fun hc => hb (List.mem_cons_of_mem _ hc)) h.2
      exact ⟨by rw [h.1, this.1], this.2⟩

theorem hyphen_inj {a b x y : String} (ha : '-' ∉ a.toList) (hb : '-' ∉ b.toList)
    (h : a ++ "-" ++ x = b ++ "-" ++ y) : a = b ∧ x = y := by
  rw [← String.toList_inj] at h
  simp only [String.toList_append, List.append_assoc] at h
  have := sep_inj (c := '-') ha hb h
  exact ⟨String.toList_inj.mp this.1, String.toList_inj.mp this.2⟩

/-! ### membership -/

theorem mem_combinations2 {β : Type _} (l : List β) (a b : β) :
    (a, b) ∈ combinations2 l ↔ ∃ i j : Nat, i < j ∧ l[i]? = some a ∧ l[j]? = some b := by
  induction l with
  | nil => simp [combinations2]
  | cons x xs ih =>
    simp only [combinations2, List.mem_append, List.mem_map, Prod.mk.injEq, ih]
    constructor
    · rintro (⟨y, hy, rfl, rfl⟩ | ⟨i, j, hij, h1, h2⟩)
      · obtain ⟨j, hj⟩ := List.mem_iff_getElem?.mp hy
        exact ⟨0, j + 1, by omega, by simp, by simpa using hj⟩
      · exact ⟨i + 1, j + 1, by omega, by simpa using h1, by simpa using h2⟩
    · rintro ⟨i, j, hij, h1, h2⟩
      cases j with
      | zero => omega
      | succ j =>
        cases i with
        | zero =>
          left
          simp only [List.getElem?_cons_zero, Option.some.injEq] at h1
          simp only [List.getElem?_cons_succ] at h2
          exact ⟨b, List.mem_of_getElem? h2, h1, rfl⟩
        | succ i =>
          right
          exact ⟨i, j, by omega, by simpa using h1, by simpa using h2⟩

theorem mem_paramsTranslog (fs : List String) (name : String) :
    name ∈ paramsTranslog fs ↔ (name ∈ fs ∨ (∃ a ∈ fs, name = a ++ " ** 2") ∨
      (∃ a b, Before fs a b ∧ name = a ++ " * " ++ b) ∨ name = "constant") := by
  unfold paramsTranslog Before
  simp only [List.mem_append, List.mem_map, List.mem_singleton, Prod.exists, mem_combinations2, or_assoc]
  refine or_congr Iff.rfl (or_congr ?_ (or_congr ?_ Iff.rfl))
  · constructor
    · rintro ⟨a, ha, rfl⟩; exact ⟨a, ha, rfl⟩
    · rintro ⟨a, ha, rfl⟩; exact ⟨a, ha, rfl⟩
  · constructor
    · rintro ⟨a, b, h, rfl⟩; exact ⟨a, b, h, rfl⟩
    · rintro ⟨a, b, h, rfl⟩; exact ⟨a, b, h, rfl⟩

theorem mem_transitionNamesOf {fs : List String} {spec : TransSpec} {names fn}
    (h : transitionNamesOf fs spec = .ok (names, fn)) (name : String) :
    name ∈ names ↔ HasTransitionParam fs spec name := by
  cases spec with
  | named s =>
    simp only [transitionNamesOf, builtinParamNames] at h
    simp only [HasTransitionParam]
    split_ifs at h with h1 h2 h3 h4 h5 h6 h7
    · subst h1
      simp only [Except.ok.injEq, Prod.mk.injEq] at h
      obtain ⟨rfl, rfl⟩ := h
      simp [paramsLinear]
    · subst h2
      simp only [Except.ok.injEq, Prod.mk.injEq] at h
      obtain ⟨rfl, rfl⟩ := h
      rw [mem_paramsTranslog]; simp
    · subst h3
      simp only [Except.ok.injEq, Prod.mk.injEq] at h
      obtain ⟨rfl, rfl⟩ := h
      simp [paramsLogCes]
    · subst h4
      simp only [Except.ok.injEq, Prod.mk.injEq] at h
      obtain ⟨rfl, rfl⟩ := h
      simp [paramsConstant]
    · subst h5
      simp only [Except.ok.injEq, Prod.mk.injEq] at h
      obtain ⟨rfl, rfl⟩ := h
      rw [paramsRobustTranslog, mem_paramsTranslog]; simp
    · subst h6
      simp only [Except.ok.injEq, Prod.mk.injEq] at h
      obtain ⟨rfl, rfl⟩ := h
      simp [paramsLinearAndSquares, eq_comm]
    · subst h7
      simp only [Except.ok.injEq, Prod.mk.injEq] at h
      obtain ⟨rfl, rfl⟩ := h
      simp [paramsLogCesGeneral, eq_comm]
  | custom fn' ps =>
    cases fn' with
    | none => cases h
    | some n =>
      cases ps with
      | none => cases h
      | some ps =>
        simp only [transitionNamesOf, Except.ok.injEq, Prod.mk.injEq] at h
        obtain ⟨rfl, rfl⟩ := h
        simp [HasTransitionParam]

theorem getTransitionInfo_spec {m : ModelDict α} {l : Labels} {ti : TransInfo}
    (h : getTransitionInfo m l = .ok ti) :
    ti.paramNames.map Prod.fst = m.factors.map Prod.fst ∧
    ti.functionNames.map Prod.fst = m.factors.map Prod.fst ∧
    (List.Forall₂ (fun (fs : String × FactorSpec α) (pn : String × List String) => pn.1 = fs.1 ∧
      ∃ fn, transitionNamesOf l.allFactors fs.2.transition = .ok (pn.2, fn)) m.factors ti.paramNames) ∧
    (List.Forall₂ (fun (fs : String × FactorSpec α) (pn : String × String) => pn.1 = fs.1 ∧
      ∃ ns, transitionNamesOf l.allFactors fs.2.transition = .ok (ns, pn.2)) m.factors ti.functionNames) := by
  unfold getTransitionInfo at h
  obtain ⟨infos, hi, h2⟩ := py_bind_ok.mp h
  clear h
  have h3 := py_pure_ok.mp h2
  clear h2
  subst h3
  rw [mapM_ok_iff] at hi
  have hi' : List.Forall₂ (fun (fs : String × FactorSpec α) (x : String × List String × String) =>
      x.1 = fs.1 ∧ transitionNamesOf l.allFactors fs.2.transition = .ok x.2) m.factors infos := by
    refine hi.imp ?_
    rintro ⟨f, spec⟩ ⟨f', r⟩ hr
    obtain ⟨r', h1, h2⟩ := py_bind_ok.mp hr
    have h2 := py_pure_ok.mp h2
    simp only [Prod.mk.injEq] at h2
    obtain ⟨rfl, rfl⟩ := h2
    exact ⟨rfl, h1⟩
  clear hi
  generalize m.factors = fs at hi'
  induction hi' with
  | nil => simp
  | cons hx _ ih =>
    obtain ⟨i1, i2, i3, i4⟩ := ih
    simp only [List.map_cons, List.cons.injEq, List.forall₂_cons] at *
    exact ⟨⟨hx.1, i1⟩, ⟨hx.1, i2⟩, ⟨⟨hx.1, _, hx.2⟩, i3⟩, ⟨hx.1, _, hx.2⟩, i4⟩

theorem range_dropLast (n : Nat) : (List.range n).dropLast = List.range (n - 1) := by
  cases n with
  | zero => rfl
  | succ n => rw [List.range_succ]; simp

theorem mem_initialCholcovs {k : Nat} {fs : List String} {l : Loc} :
    l ∈ initialCholcovsIndexTuples k fs ↔ ∃ (e i j : Nat) (f g : String), e < k ∧ j ≤ i ∧ fs[i]? = some f ∧ fs[j]? = some g ∧
      l = ⟨.initialCholcovs, 0, mixtureName e, f ++ "-" ++ g⟩ := by
  unfold initialCholcovsIndexTuples
  simp only [List.mem_flatMap, List.mem_range, List.mem_map, List.mem_filter, Prod.exists,
    List.mem_zipIdx_iff_getElem?, decide_eq_true_eq]
  constructor
  · rintro ⟨e, he, f, i, hi, g, j, ⟨hj, hji⟩, rfl⟩
    exact ⟨e, i, j, f, g, he, hji, hi, hj, rfl⟩
  · rintro ⟨e, i, j, f, g, he, hji, hi, hj, rfl⟩
    exact ⟨e, he, f, i, hi, g, j, ⟨hj, hji⟩, rfl⟩

section
variable [OfScientific α] [Neg α] [Zero α] [One α] [OfNat α 2] [DecidableEq α]

theorem hasNMixtures_of_ok {m : ModelDict α} {pm : Processed α} (h : processModel m = .ok pm) (k : Nat) :
    HasNMixtures m k ↔ k = pm.dimensions.nMixtures := by
  rw [processModel_ok_iff] at h
  obtain ⟨o, n, ho, hn, he⟩ := getDimensions_ok h.1
  rw [he]
  unfold HasNMixtures
  simp only [ho, Option.some.injEq, exists_eq_left']
  cases o.nMixtures <;> simp [eq_comm]

theorem isNPeriods_of_ok {m : ModelDict α} {pm : Processed α} (h : processModel m = .ok pm) :
    IsNPeriods m pm.dimensions.nPeriods := by
  rw [processModel_ok_iff] at h
  obtain ⟨o, n, ho, hn, he⟩ := getDimensions_ok h.1
  rw [he]; exact hn

theorem isPeriod_iff {m : ModelDict α} {pm : Processed α} (h : processModel m = .ok pm) (t : Nat) :
    IsPeriod m t ↔ t < pm.dimensions.nPeriods := by
  constructor
  · rintro ⟨n, hn, ht⟩
    rwa [IsNPeriods.unique hn (isNPeriods_of_ok h)] at ht
  · intro ht; exact ⟨_, isNPeriods_of_ok h, ht⟩

theorem labels_of_ok {m : ModelDict α} {pm : Processed α} (h : processModel m = .ok pm) :
    pm.labels.latentFactors = m.factors.map Prod.fst ∧
    pm.labels.observedFactors = m.observedFactors.getD [] ∧
    pm.labels.controls = "constant" :: m.controls.getD [] ∧
    pm.labels.periods = List.range pm.dimensions.nPeriods ∧
    pm.labels.allFactors = allFactors m ∧
    getTransitionInfo m (getLabels m pm.dimensions) = .ok pm.transitionInfo ∧
    pm.labels.transitionNames = pm.transitionInfo.functionNames.map Prod.snd := by
  rw [processModel_ok_iff] at h
  obtain ⟨hd, _, ht, hl, _⟩ := h
  rw [hl]
  exact ⟨rfl, rfl, rfl, rfl, rfl, ht, rfl⟩

theorem isUpdate_iff {m : ModelDict α} {pm : Processed α} (h : processModel m = .ok pm) (t v) :
    IsUpdate m t v ↔ ∃ r ∈ pm.updateInfo, r.period = t ∧ r.var = v :=
  ((C01_update_info_exact h).2.1 t v).symm

/-- Membership in the parameter index. -/
theorem mem_paramsIndex_iff {m : ModelDict α} {pm : Processed α} (h : processModel m = .ok pm)
    (l : Loc) : l ∈ pm.paramsIndex ↔ IsParam m l := by
  obtain ⟨hlat, hobs, hcon, hper, hall, hti, _⟩ := labels_of_ok h
  obtain ⟨hnodup, hkey, _, htrue, _⟩ := C01_update_info_exact h
  have hn1 : 1 ≤ pm.dimensions.nPeriods := by
    have := (processModel_ok_iff.mp h).2.1
    exact ((checkModel_ok_iff (isNPeriods_of_ok h)).mp this).periods _ (isNPeriods_of_ok h)
  obtain ⟨ht1, _, ht2, _⟩ := getTransitionInfo_spec hti
  have hdrop : ∀ t, t ∈ pm.labels.periods.dropLast ↔ IsPeriod m (t + 1) := by
    intro t
    rw [hper, range_dropLast, List.mem_range, isPeriod_iff h]; omega
  have hlatmem : ∀ f, f ∈ pm.labels.latentFactors ↔ IsLatent m f := by
    intro f
    rw [hlat, List.mem_map]
    constructor
    · rintro ⟨⟨f, s⟩, h, rfl⟩; exact ⟨s, h⟩
    · rintro ⟨s, h⟩; exact ⟨(f, s), h, rfl⟩
  unfold Processed.paramsIndex getParamsIndex
  simp only [List.mem_append]
  constructor
  · rintro (((((((hx | hx) | hx) | hx) | hx) | hx) | hx) | hx)
    · simp only [controlParamsIndexTuples, List.mem_flatMap, List.mem_map] at hx
      obtain ⟨r, hr, c, hc, rfl⟩ := hx
      refine .control ((isUpdate_iff h _ _).mpr ⟨r, hr, rfl, rfl⟩) ?_
      rw [hcon] at hc; simpa using hc
    · simp only [loadingsIndexTuples, List.mem_flatMap, List.mem_map, List.mem_filter, decide_eq_true_eq] at hx
      obtain ⟨r, hr, f, ⟨hf, hft⟩, rfl⟩ := hx
      refine .loading ((hlatmem f).mp hf) ?_
      rcases (htrue r hr f).mp hft with h1 | h1
      · exact Or.inl h1
      · right
        refine ⟨?_, h1⟩
        have := (isUpdate_iff h r.period r.var).mpr ⟨r, hr, rfl, rfl⟩
        rcases this with ⟨f', hM⟩ | ⟨h2, _⟩
        · exact ⟨_, isNPeriods_of_ok h, measures_lt (isNPeriods_of_ok h) hM⟩
        · exact h2
    · simp only [measSdsIndexTuples, List.mem_map] at hx
      obtain ⟨r, hr, rfl⟩ := hx
      exact .measSd ((isUpdate_iff h _ _).mpr ⟨r, hr, rfl, rfl⟩)
    · simp only [shockSdsIndexTuples, List.mem_flatMap, List.mem_map] at hx
      obtain ⟨p, hp, f, hf, rfl⟩ := hx
      exact .shockSd ((hdrop p).mp hp) ((hlatmem f).mp hf)
    · simp only [initialMeanIndexTuples, List.mem_flatMap, List.mem_map, List.mem_range] at hx
      obtain ⟨k, hk, f, hf, rfl⟩ := hx
      exact .initialState ((hasNMixtures_of_ok h _).mpr rfl) hk ((hlatmem f).mp hf)
    · simp only [mixtureWeightsIndexTuples, List.mem_map, List.mem_range] at hx
      obtain ⟨k, hk, rfl⟩ := hx
      exact .mixtureWeight ((hasNMixtures_of_ok h _).mpr rfl) hk
    · rw [mem_initialCholcovs] at hx
      obtain ⟨e, i, j, f, g, he, hji, hi, hj, rfl⟩ := hx
      rw [hlat] at hi hj
      exact .cholcov ((hasNMixtures_of_ok h _).mpr rfl) he hji hi hj
    · simp only [transitionIndexTuples, List.mem_flatMap, List.mem_map, Prod.exists] at hx
      obtain ⟨f, names, hf, p, hp, name, hname, rfl⟩ := hx
      obtain ⟨⟨f', spec⟩, hmem, heq, fn, htn⟩ := forall₂_mem_right ht2 hf
      simp only at heq
      subst heq
      exact .transition ((hdrop p).mp hp) hmem ((mem_transitionNamesOf htn name).mp hname)
  · intro hx
    cases hx with
    | control h1 h2 =>
      rename_i t v c
      obtain ⟨r, hr, rfl, rfl⟩ := (isUpdate_iff h t v).mp h1
      iterate 7 left
      simp only [controlParamsIndexTuples, List.mem_flatMap, List.mem_map]
      exact ⟨r, hr, c, by rw [hcon]; simpa using h2, rfl⟩
    | loading h1 h2 =>
      rename_i t v f
      have hu : IsUpdate m t v := by
        rcases h2 with h2 | h2
        · exact Or.inl ⟨f, h2⟩
        · exact Or.inr ⟨h2.1, f, h2.2⟩
      obtain ⟨r, hr, rfl, rfl⟩ := (isUpdate_iff h t v).mp hu
      iterate 6 left
      right
      simp only [loadingsIndexTuples, List.mem_flatMap, List.mem_map, List.mem_filter, decide_eq_true_eq]
      exact ⟨r, hr, f, ⟨(hlatmem f).mpr h1, (htrue r hr f).mpr (h2.imp id And.right)⟩, rfl⟩
    | measSd h1 =>
      rename_i t v
      obtain ⟨r, hr, rfl, rfl⟩ := (isUpdate_iff h t v).mp h1
      iterate 5 left
      right
      simp only [measSdsIndexTuples, List.mem_map]
      exact ⟨r, hr, rfl⟩
    | shockSd h1 h2 =>
      rename_i t f
      iterate 4 left
      right
      simp only [shockSdsIndexTuples, List.mem_flatMap, List.mem_map]
      exact ⟨t, (hdrop t).mpr h1, f, (hlatmem f).mpr h2, rfl⟩
    | initialState h1 h2 h3 =>
      rename_i n k f
      rw [hasNMixtures_of_ok h] at h1
      subst h1
      iterate 3 left
      right
      simp only [initialMeanIndexTuples, List.mem_flatMap, List.mem_map, List.mem_range]
      exact ⟨k, h2, f, (hlatmem f).mpr h3, rfl⟩
    | mixtureWeight h1 h2 =>
      rename_i n k
      rw [hasNMixtures_of_ok h] at h1
      subst h1
      iterate 2 left
      right
      simp only [mixtureWeightsIndexTuples, List.mem_map, List.mem_range]
      exact ⟨k, h2, rfl⟩
    | cholcov h1 h2 h3 h4 h5 =>
      rename_i n k i j f g
      rw [hasNMixtures_of_ok h] at h1
      subst h1
      left; right
      rw [mem_initialCholcovs, hlat]
      exact ⟨k, i, j, f, g, h2, h3, h4, h5, rfl⟩
    | transition h1 h2 h3 =>
      rename_i t f spec name
      right
      simp only [transitionIndexTuples, List.mem_flatMap, List.mem_map, Prod.exists]
      obtain ⟨⟨f', names⟩, hmem, heq, fn, htn⟩ := forall₂_mem ht2 h2
      simp only at heq
      subst heq
      exact ⟨f', names, hmem, t, (hdrop t).mpr h1, name, (mem_transitionNamesOf htn name).mpr h3, rfl⟩

end
end Skill
