import Verif.Lemmas.ParamsIndex
import Verif.Examples.Models
/-
C05 (content of the parameter index), C06 (no duplicates), C49 (names of transition parameters).
-/
namespace Skill
open Spec
variable {α : Type}

/-! ### C49: transition parameter names -/

/-- Names of factors that cannot be confused with derived parameter names. -/
def NamesFree (fs : List String) : Prop :=
  fs.Nodup ∧ (∀ f ∈ fs, ' ' ∉ f.toList) ∧
  (∀ f ∈ fs, f ≠ "constant" ∧ f ≠ "phi" ∧ f ≠ "tfp" ∧ ∀ g ∈ fs, f ≠ "sigma_" ++ g)

theorem combinations2_nodup {β : Type _} {l : List β} (h : l.Nodup) : (combinations2 l).Nodup := by
  induction l with
  | nil => simp [combinations2]
  | cons x xs ih =>
    rw [List.nodup_cons] at h
    simp only [combinations2]
    rw [List.nodup_append]
    refine ⟨?_, ih h.2, ?_⟩
    · refine List.Nodup.map ?_ h.2
      intro a b hab; simpa using hab
    · rintro ⟨a, b⟩ hab ⟨c, d⟩ hcd heq
      simp only [List.mem_map, Prod.mk.injEq] at hab
      obtain ⟨_, _, rfl, rfl⟩ := hab
      cases heq
      rw [mem_combinations2] at hcd
      obtain ⟨i, j, _, h1, _⟩ := hcd
      exact h.1 (List.mem_of_getElem? h1)

theorem space_mem_square (a : String) : ' ' ∈ (a ++ " ** 2").toList := by
  rw [String.toList_append, List.mem_append]; right; decide

theorem space_mem_inter (a b : String) : ' ' ∈ (a ++ " * " ++ b).toList := by
  rw [String.toList_append, String.toList_append, List.mem_append, List.mem_append]
  left; right; decide

theorem square_ne_inter {a b c : String} (ha : ' ' ∉ a.toList) (hb : ' ' ∉ b.toList) :
    a ++ " ** 2" ≠ b ++ " * " ++ c := by
  intro h
  rw [← String.toList_inj] at h
  simp only [String.toList_append, List.append_assoc] at h
  have e1 : " ** 2".toList = ' ' :: ['*', '*', ' ', '2'] := by decide
  have e2 : " * ".toList = ' ' :: ['*', ' '] := by decide
  rw [e1, e2] at h
  have := (sep_inj (c := ' ') ha hb h).2
  simp at this

theorem inter_inj {a b c d : String} (ha : ' ' ∉ a.toList) (hc : ' ' ∉ c.toList)
    (h : a ++ " * " ++ b = c ++ " * " ++ d) : a = c ∧ b = d := by
  rw [← String.toList_inj] at h
  simp only [String.toList_append, List.append_assoc] at h
  have e2 : " * ".toList = ' ' :: ['*', ' '] := by decide
  rw [e2] at h
  have := sep_inj (c := ' ') ha hc h
  refine ⟨String.toList_inj.mp this.1, String.toList_inj.mp ?_⟩
  simpa using this.2

theorem paramsTranslog_nodup {fs : List String} (h : NamesFree fs) : (paramsTranslog fs).Nodup := by
  obtain ⟨hn, hs, hr⟩ := h
  unfold paramsTranslog
  have hc : ∀ a b, (a, b) ∈ combinations2 fs → a ∈ fs ∧ b ∈ fs := by
    intro a b hab
    rw [mem_combinations2] at hab
    obtain ⟨i, j, _, h1, h2⟩ := hab
    exact ⟨List.mem_of_getElem? h1, List.mem_of_getElem? h2⟩
  rw [List.nodup_append, List.nodup_append, List.nodup_append]
  refine ⟨⟨⟨hn, ?_, ?_⟩, ?_, ?_⟩, by simp, ?_⟩
  · exact hn.map (fun a b hab => string_append_right_inj hab)
  · intro a ha b hb hab
    simp only [List.mem_map] at hb
    obtain ⟨c, _, rfl⟩ := hb
    exact hs a ha (hab ▸ space_mem_square c)
  · refine List.Nodup.map_on ?_ (combinations2_nodup hn)
    rintro ⟨a, b⟩ hab ⟨c, d⟩ hcd heq
    have := inter_inj (hs a (hc a b hab).1) (hs c (hc c d hcd).1) heq
    exact Prod.ext this.1 this.2
  · intro a ha b hb hab
    simp only [List.mem_append, List.mem_map, Prod.exists] at ha hb
    obtain ⟨c, d, hcd, rfl⟩ := hb
    rcases ha with ha | ⟨a, ha, rfl⟩
    · exact hs a ha (hab ▸ space_mem_inter c d)
    · exact square_ne_inter (hs a ha) (hs c (hc c d hcd).1) hab
  · intro a ha b hb hab
    simp only [List.mem_singleton] at hb
    subst hb
    simp only [List.mem_append, List.mem_map, Prod.exists] at ha
    have hsp : ' ' ∉ "constant".toList := by decide
    rcases ha with (ha | ⟨a, ha, rfl⟩) | ⟨c, d, hcd, rfl⟩
    · exact (hr a ha).1 hab
    · exact hsp (hab ▸ space_mem_square a)
    · exact hsp (hab ▸ space_mem_inter c d)

theorem paramsLinear_nodup {fs : List String} (h : NamesFree fs) : (paramsLinear fs).Nodup := by
  unfold paramsLinear
  rw [List.nodup_append]
  refine ⟨h.1, by simp, ?_⟩
  intro a ha b hb hab
  simp only [List.mem_singleton] at hb
  exact (h.2.2 a ha).1 (hab.trans hb)

theorem paramsLogCes_nodup {fs : List String} (h : NamesFree fs) : (paramsLogCes fs).Nodup := by
  unfold paramsLogCes
  rw [List.nodup_append]
  refine ⟨h.1, by simp, ?_⟩
  intro a ha b hb hab
  simp only [List.mem_singleton] at hb
  exact (h.2.2 a ha).2.1 (hab.trans hb)

theorem paramsLinearAndSquares_nodup {fs : List String} (h : NamesFree fs) :
    (paramsLinearAndSquares fs).Nodup := by
  obtain ⟨hn, hs, hr⟩ := h
  unfold paramsLinearAndSquares
  rw [List.nodup_append, List.nodup_append]
  refine ⟨⟨hn, ?_, ?_⟩, by simp, ?_⟩
  · exact hn.map (fun a b hab => string_append_right_inj hab)
  · intro a ha b hb hab
    simp only [List.mem_map] at hb
    obtain ⟨c, _, rfl⟩ := hb
    exact hs a ha (hab ▸ space_mem_square c)
  · intro a ha b hb hab
    simp only [List.mem_singleton] at hb
    subst hb
    simp only [List.mem_append, List.mem_map] at ha
    have hsp : ' ' ∉ "constant".toList := by decide
    rcases ha with ha | ⟨a, ha, rfl⟩
    · exact (hr a ha).1 hab
    · exact hsp (hab ▸ space_mem_square a)

theorem paramsLogCesGeneral_nodup {fs : List String} (h : NamesFree fs) :
    (paramsLogCesGeneral fs).Nodup := by
  obtain ⟨hn, hs, hr⟩ := h
  unfold paramsLogCesGeneral
  rw [List.nodup_append, List.nodup_append]
  refine ⟨⟨hn, ?_, ?_⟩, by simp, ?_⟩
  · exact hn.map (fun a b hab => string_append_left_inj hab)
  · intro a ha b hb hab
    simp only [List.mem_map] at hb
    obtain ⟨c, hc, rfl⟩ := hb
    exact (hr a ha).2.2.2 c hc hab
  · intro a ha b hb hab
    simp only [List.mem_singleton] at hb
    subst hb
    simp only [List.mem_append, List.mem_map] at ha
    rcases ha with ha | ⟨a, ha, rfl⟩
    · exact (hr a ha).2.2.1 hab
    · have := congrArg (fun s : String => s.toList.head?) hab
      simp only [String.toList_append] at this
      have e1 : "sigma_".toList = ['s', 'i', 'g', 'm', 'a', '_'] := by decide
      have e2 : "tfp".toList = ['t', 'f', 'p'] := by decide
      rw [e1, e2] at this
      simp at this

/-- **C49.** Number of names of every built-in (as a function of the number n of factors) and
distinctness of the names. -/
theorem C49_param_names (fs : List String) :
    (paramsLinear fs).length = fs.length + 1 ∧
    (paramsTranslog fs).length = 2 * fs.length + (combinations2 fs).length + 1 ∧
    2 * (combinations2 fs).length = fs.length * (fs.length - 1) ∧
    (paramsRobustTranslog fs).length = (paramsTranslog fs).length ∧
    (paramsLogCes fs).length = fs.length + 1 ∧
    (paramsConstant fs).length = 0 ∧
    (paramsLinearAndSquares fs).length = 2 * fs.length + 1 ∧
    (paramsLogCesGeneral fs).length = 2 * fs.length + 1 ∧
    (NamesFree fs → ∀ s names, builtinParamNames s = some names → (names fs).Nodup) := by
  refine ⟨by simp [paramsLinear], by simp [paramsTranslog]; omega, ?_, rfl, by simp [paramsLogCes], rfl,
    by simp [paramsLinearAndSquares]; omega, by simp [paramsLogCesGeneral]; omega, ?_⟩
  · induction fs with
    | nil => rfl
    | cons x xs ih =>
      simp only [combinations2, List.length_append, List.length_map, List.length_cons,
        Nat.mul_add, ih, Nat.add_sub_cancel]
      cases xs.length with
      | zero => rfl
      | succ n => simp only [Nat.add_sub_cancel]; ring
  · intro h s names hs
    unfold builtinParamNames at hs
    split_ifs at hs <;> cases hs
    · exact paramsLinear_nodup h
    · exact paramsTranslog_nodup h
    · exact paramsLogCes_nodup h
    · exact List.nodup_nil
    · exact paramsTranslog_nodup h
    · exact paramsLinearAndSquares_nodup h
    · exact paramsLogCesGeneral_nodup h

/-- Non-vacuity of C49. -/
example : NamesFree ["fac1", "fac2", "inc"] := by
  refine ⟨by decide, by decide, by decide⟩

/-! ### C05 and C06 -/

section
variable [OfScientific α] [Neg α] [Zero α] [One α] [OfNat α 2] [DecidableEq α]

/-- **C05.** The parameter index contains exactly the parameters of the model. -/
theorem C05_index_membership {m : ModelDict α} {pm : Processed α} (h : processModel m = .ok pm)
    (l : Loc) : l ∈ pm.paramsIndex ↔ IsParam m l :=
  mem_paramsIndex_iff h l

/-- Non-vacuity of C05: labels that are (not) in the index of the example. -/
example : (processModel Ex.model2).map (fun p => decide
    (⟨.loadings, 2, "y2", "fac2"⟩ ∈ p.paramsIndex ∧ ⟨.loadings, 2, "y2", "fac1"⟩ ∉ p.paramsIndex ∧
     ⟨.transition, 1, "fac2", "fac1 * inc"⟩ ∈ p.paramsIndex ∧
     ⟨.initialCholcovs, 0, "mixture_1", "fac3-fac1"⟩ ∈ p.paramsIndex ∧
     ⟨.initialCholcovs, 0, "mixture_1", "fac1-fac3"⟩ ∉ p.paramsIndex)) = .ok true := by decide +kernel

/-- Blocks with different keys that are duplicate free are jointly duplicate free. -/
theorem nodup_flatMap_of_key {β γ κ : Type _} {l : List β} {f : β → List γ} {key : β → κ} {proj : γ → κ}
    (hl : (l.map key).Nodup) (hf : ∀ x ∈ l, (f x).Nodup) (hp : ∀ x ∈ l, ∀ y ∈ f x, proj y = key x) :
    (l.flatMap f).Nodup := by
  induction l with
  | nil => simp
  | cons x xs ih =>
    simp only [List.map_cons, List.nodup_cons] at hl
    rw [List.flatMap_cons, List.nodup_append]
    refine ⟨hf x (by simp), ih hl.2 (fun y hy => hf y (by simp [hy])) (fun y hy => hp y (by simp [hy])), ?_⟩
    intro a ha b hb hab
    subst hab
    rw [List.mem_flatMap] at hb
    obtain ⟨y, hy, hay⟩ := hb
    have h1 := hp x (by simp) a ha
    have h2 := hp y (by simp [hy]) a hay
    apply hl.1
    rw [← h1, h2]
    exact List.mem_map_of_mem hy

omit [OfScientific α] [Neg α] [Zero α] [One α] [OfNat α 2] [DecidableEq α] in
theorem goodNames_free {m : ModelDict α} (h : GoodNames m) : NamesFree (allFactors m) :=
  ⟨h.distinct, fun f hf => (h.chars f hf).2, h.reserved⟩

theorem cholcovs_nodup {k : Nat} {fs : List String} (hn : fs.Nodup) (hc : ∀ f ∈ fs, '-' ∉ f.toList) :
    (initialCholcovsIndexTuples k fs).Nodup := by
  unfold initialCholcovsIndexTuples
  refine nodup_flatMap_of_key (key := mixtureName) (proj := Loc.name1) ?_ ?_ ?_
  · refine List.Nodup.map ?_ List.nodup_range
    intro a b h; exact mixtureName_inj h
  · intro e _
    rw [List.nodup_flatMap]
    refine ⟨?_, ?_⟩
    · rintro ⟨f, i⟩ hfi
      rw [List.mem_zipIdx_iff_getElem?] at hfi
      have hsub : (fs.zipIdx.filter (fun (x : String × Nat) => decide (x.2 ≤ i))).Nodup := by
        refine List.Nodup.filter _ ?_
        exact List.Nodup.of_map Prod.fst (by rw [List.zipIdx_map_fst]; exact hn)
      refine List.Nodup.map_on ?_ hsub
      rintro ⟨g, j⟩ hg ⟨g', j'⟩ hg' heq
      simp only [Loc.mk.injEq, true_and] at heq
      have hgg : g = g' := string_append_left_inj heq
      subst hgg
      rw [List.mem_filter, List.mem_zipIdx_iff_getElem?] at hg hg'
      have e1 := List.getElem?_eq_some_iff.mp hg.1
      have e2 := List.getElem?_eq_some_iff.mp hg'.1
      obtain ⟨l1, e1⟩ := e1
      obtain ⟨l2, e2⟩ := e2
      have : j = j' := (List.Nodup.getElem_inj_iff hn).mp (e1.trans e2.symm)
      rw [this]
    · have hz : fs.zipIdx.Pairwise (fun a b => a.1 ≠ b.1) := by
        have : (fs.zipIdx.map Prod.fst).Nodup := by rw [List.zipIdx_map_fst]; exact hn
        rw [List.Nodup, List.pairwise_map] at this
        exact this
      refine (List.Pairwise.and_mem.mp hz).imp ?_
      rintro ⟨f, i⟩ ⟨f', i'⟩ ⟨hm1, hm2, hne⟩ x hx hx'
      simp only [List.mem_map, Prod.exists] at hx hx'
      obtain ⟨g, j, _, rfl⟩ := hx
      obtain ⟨g', j', _, heq⟩ := hx'
      simp only [Loc.mk.injEq, true_and] at heq
      rw [List.mem_zipIdx_iff_getElem?] at hm1 hm2
      have := hyphen_inj (hc f' (List.mem_of_getElem? hm2)) (hc f (List.mem_of_getElem? hm1)) heq
      exact hne this.1.symm
  · intro e _ y hy
    simp only [List.mem_flatMap, List.mem_map, Prod.exists] at hy
    obtain ⟨_, _, _, _, _, _, rfl⟩ := hy
    rfl

/-- **C06 (partial).** With well formed names no label occurs twice in the parameter index.
Missing for the full statement: arbitrary names, see the counterexample. -/
theorem C06_index_unique_partial {m : ModelDict α} {pm : Processed α} (h : processModel m = .ok pm)
    (hg : GoodNames m) : pm.paramsIndex.Nodup := by
  obtain ⟨hlat, hobs, hcon, hper, hall, hti, _⟩ := labels_of_ok h
  obtain ⟨hnodup, _, _, _, _⟩ := C01_update_info_exact h
  obtain ⟨ht1, _, ht2, _⟩ := getTransitionInfo_spec hti
  have hlatn : pm.labels.latentFactors.Nodup := by rw [hlat]; exact hg.keys.factors
  have hpern : pm.labels.periods.dropLast.Nodup := by
    rw [hper, range_dropLast]; exact List.nodup_range
  have s1 : (controlParamsIndexTuples pm.labels.controls pm.updateInfo).Nodup := by
    unfold controlParamsIndexTuples
    refine nodup_flatMap_of_key (key := fun r : URow => (r.period, r.var))
      (proj := fun l : Loc => (l.period, l.name1)) hnodup ?_ ?_
    · intro r _
      refine List.Nodup.map ?_ (by rw [hcon]; exact hg.controls)
      intro a b hab; simpa using hab
    · intro r _ y hy
      simp only [List.mem_map] at hy
      obtain ⟨_, _, rfl⟩ := hy; rfl
  have s2 : (loadingsIndexTuples pm.labels.latentFactors pm.updateInfo).Nodup := by
    unfold loadingsIndexTuples
    refine nodup_flatMap_of_key (key := fun r : URow => (r.period, r.var))
      (proj := fun l : Loc => (l.period, l.name1)) hnodup ?_ ?_
    · intro r _
      refine List.Nodup.map ?_ (hlatn.filter _)
      intro a b hab; simpa using hab
    · intro r _ y hy
      simp only [List.mem_map] at hy
      obtain ⟨_, _, rfl⟩ := hy; rfl
  have s3 : (measSdsIndexTuples pm.updateInfo).Nodup := by
    unfold measSdsIndexTuples
    have := List.Nodup.map (f := fun k : Nat × String => (⟨.measSds, k.1, k.2, "-"⟩ : Loc))
      (by rintro ⟨a, b⟩ ⟨c, d⟩ hab; simpa using hab) hnodup
    rw [List.map_map] at this
    exact this
  have s4 : (shockSdsIndexTuples pm.labels.periods pm.labels.latentFactors).Nodup := by
    unfold shockSdsIndexTuples
    refine nodup_flatMap_of_key (key := id) (proj := Loc.period) (by simpa using hpern) ?_ ?_
    · intro p _
      refine List.Nodup.map ?_ hlatn
      intro a b hab; simpa using hab
    · intro r _ y hy
      simp only [List.mem_map] at hy
      obtain ⟨_, _, rfl⟩ := hy; rfl
  have s5 : (initialMeanIndexTuples pm.dimensions.nMixtures pm.labels.latentFactors).Nodup := by
    unfold initialMeanIndexTuples
    refine nodup_flatMap_of_key (key := mixtureName) (proj := Loc.name1) ?_ ?_ ?_
    · exact List.Nodup.map (fun a b h => mixtureName_inj h) List.nodup_range
    · intro p _
      refine List.Nodup.map ?_ hlatn
      intro a b hab; simpa using hab
    · intro r _ y hy
      simp only [List.mem_map] at hy
      obtain ⟨_, _, rfl⟩ := hy; rfl
  have s6 : (mixtureWeightsIndexTuples pm.dimensions.nMixtures).Nodup := by
    unfold mixtureWeightsIndexTuples
    refine List.Nodup.map ?_ List.nodup_range
    intro a b hab
    simp only [Loc.mk.injEq, true_and, and_true] at hab
    exact mixtureName_inj hab
  have s7 : (initialCholcovsIndexTuples pm.dimensions.nMixtures pm.labels.latentFactors).Nodup := by
    refine cholcovs_nodup hlatn ?_
    intro f hf
    rw [hlat] at hf
    exact (hg.chars f (List.mem_append_left _ hf)).1
  have s8 : (transitionIndexTuples pm.transitionInfo.paramNames pm.labels.periods).Nodup := by
    unfold transitionIndexTuples
    refine nodup_flatMap_of_key (key := Prod.fst) (proj := Loc.name1) ?_ ?_ ?_
    · rw [ht1]; exact hg.keys.factors
    · rintro ⟨f, names⟩ hf
      refine nodup_flatMap_of_key (key := id) (proj := Loc.period) (by simpa using hpern) ?_ ?_
      · intro p _
        have hnames : names.Nodup := by
          obtain ⟨⟨f', spec⟩, hmem, heq, fn, htn⟩ := forall₂_mem_right ht2 hf
          have hall' : (getLabels m pm.dimensions).allFactors = allFactors m := rfl
          rw [hall'] at htn
          cases hsp : spec.transition with
          | named s =>
            simp only [hsp, transitionNamesOf] at htn
            cases hb : builtinParamNames s with
            | none => simp [hb] at htn
            | some nm =>
              simp only [hb, Except.ok.injEq, Prod.mk.injEq] at htn
              rw [← htn.1]
              exact (C49_param_names _).2.2.2.2.2.2.2.2 (goodNames_free hg) s nm hb
          | custom fn' ps =>
            simp only [hsp] at htn
            cases fn' with
            | none => cases htn
            | some fn' =>
              cases ps with
              | none => cases htn
              | some ps =>
                simp only [transitionNamesOf, Except.ok.injEq, Prod.mk.injEq] at htn
                rw [← htn.1]
                exact hg.registered f' spec _ _ hmem hsp
        refine List.Nodup.map ?_ hnames
        intro a b hab; simpa using hab
      · intro r _ y hy
        simp only [List.mem_map] at hy
        obtain ⟨_, _, rfl⟩ := hy; rfl
    · rintro ⟨f, names⟩ _ y hy
      simp only [List.mem_flatMap, List.mem_map] at hy
      obtain ⟨_, _, _, _, rfl⟩ := hy; rfl
  have c1 : ∀ x ∈ controlParamsIndexTuples pm.labels.controls pm.updateInfo, x.cat = .controls := by
    intro x hx
    simp only [controlParamsIndexTuples, List.mem_flatMap, List.mem_map] at hx
    obtain ⟨_, _, _, _, rfl⟩ := hx; rfl
  have c2 : ∀ x ∈ loadingsIndexTuples pm.labels.latentFactors pm.updateInfo, x.cat = .loadings := by
    intro x hx
    simp only [loadingsIndexTuples, List.mem_flatMap, List.mem_map] at hx
    obtain ⟨_, _, _, _, rfl⟩ := hx; rfl
  have c3 : ∀ x ∈ measSdsIndexTuples pm.updateInfo, x.cat = .measSds := by
    intro x hx
    simp only [measSdsIndexTuples, List.mem_map] at hx
    obtain ⟨_, _, rfl⟩ := hx; rfl
  have c4 : ∀ x ∈ shockSdsIndexTuples pm.labels.periods pm.labels.latentFactors, x.cat = .shockSds := by
    intro x hx
    simp only [shockSdsIndexTuples, List.mem_flatMap, List.mem_map] at hx
    obtain ⟨_, _, _, _, rfl⟩ := hx; rfl
  have c5 : ∀ x ∈ initialMeanIndexTuples pm.dimensions.nMixtures pm.labels.latentFactors,
      x.cat = .initialStates := by
    intro x hx
    simp only [initialMeanIndexTuples, List.mem_flatMap, List.mem_map] at hx
    obtain ⟨_, _, _, _, rfl⟩ := hx; rfl
  have c6 : ∀ x ∈ mixtureWeightsIndexTuples pm.dimensions.nMixtures, x.cat = .mixtureWeights := by
    intro x hx
    simp only [mixtureWeightsIndexTuples, List.mem_map] at hx
    obtain ⟨_, _, rfl⟩ := hx; rfl
  have c7 : ∀ x ∈ initialCholcovsIndexTuples pm.dimensions.nMixtures pm.labels.latentFactors,
      x.cat = .initialCholcovs := by
    intro x hx
    rw [mem_initialCholcovs] at hx
    obtain ⟨_, _, _, _, _, _, _, _, _, rfl⟩ := hx; rfl
  have c8 : ∀ x ∈ transitionIndexTuples pm.transitionInfo.paramNames pm.labels.periods,
      x.cat = .transition := by
    intro x hx
    simp only [transitionIndexTuples, List.mem_flatMap, List.mem_map, Prod.exists] at hx
    obtain ⟨_, _, _, _, _, _, _, rfl⟩ := hx; rfl
  unfold Processed.paramsIndex getParamsIndex
  have app : ∀ {a b : List Loc}, a.Nodup → b.Nodup → (∀ x ∈ a, ∀ y ∈ b, x.cat ≠ y.cat) → (a ++ b).Nodup := by
    intro a b ha hb hd
    rw [List.nodup_append]
    exact ⟨ha, hb, fun x hx y hy hxy => hd x hx y hy (by rw [hxy])⟩
  refine app (app (app (app (app (app (app s1 s2 ?_) s3 ?_) s4 ?_) s5 ?_) s6 ?_) s7 ?_) s8 ?_
  all_goals
    intro x hx y hy
    try simp only [List.mem_append] at hx
  · rw [c1 x hx, c2 y hy]; simp
  · rw [c3 y hy]
    rcases hx with hx | hx
    · simp [c1 x hx]
    · simp [c2 x hx]
  · rw [c4 y hy]
    rcases hx with (hx | hx) | hx
    · simp [c1 x hx]
    · simp [c2 x hx]
    · simp [c3 x hx]
  · rw [c5 y hy]
    rcases hx with ((hx | hx) | hx) | hx
    · simp [c1 x hx]
    · simp [c2 x hx]
    · simp [c3 x hx]
    · simp [c4 x hx]
  · rw [c6 y hy]
    rcases hx with (((hx | hx) | hx) | hx) | hx
    · simp [c1 x hx]
    · simp [c2 x hx]
    · simp [c3 x hx]
    · simp [c4 x hx]
    · simp [c5 x hx]
  · rw [c7 y hy]
    rcases hx with ((((hx | hx) | hx) | hx) | hx) | hx
    · simp [c1 x hx]
    · simp [c2 x hx]
    · simp [c3 x hx]
    · simp [c4 x hx]
    · simp [c5 x hx]
    · simp [c6 x hx]
  · rw [c8 y hy]
    rcases hx with (((((hx | hx) | hx) | hx) | hx) | hx) | hx
    · simp [c1 x hx]
    · simp [c2 x hx]
    · simp [c3 x hx]
    · simp [c4 x hx]
    · simp [c5 x hx]
    · simp [c6 x hx]
    · simp [c7 x hx]

end

/-- Decidable reformulation used for concrete models. -/
theorem goodNames_model2 : GoodNames Ex.model2 where
  keys := ⟨by decide, by
    intro a os h1 h2
    simp only [Ex.model2, Option.some.injEq] at h1
    subst h1
    simp only [Option.some.injEq] at h2
    subst h2
    decide⟩
  distinct := by decide
  controls := by decide
  chars := by decide
  reserved := by decide
  registered := by
    intro f spec fn ps hmem hs
    simp only [Ex.model2, List.mem_cons, Prod.mk.injEq, List.not_mem_nil, or_false] at hmem
    rcases hmem with ⟨rfl, rfl⟩ | ⟨rfl, rfl⟩ | ⟨rfl, rfl⟩ <;> simp at hs

/-- Non-vacuity of C06. -/
example : (∃ pm, processModel Ex.model2 = .ok pm) ∧ GoodNames Ex.model2 := by
  refine ⟨?_, goodNames_model2⟩
  have h : (processModel Ex.model2).toBool = true := by decide +kernel
  cases hp : processModel Ex.model2 with
  | error e => rw [hp] at h; cases h
  | ok pm => exact ⟨pm, rfl⟩

/-- Factors with hyphens in their names (allowed by the documentation: "any python string"). -/
def Ex.hyphens : ModelDict Rat where
  factors := [
    ("c", { measurements := [["y1"], ["y1"]], transition := .named "linear" }),
    ("b-c", { measurements := [["y2"], ["y2"]], transition := .named "linear" }),
    ("a-b", { measurements := [["y3"], ["y3"]], transition := .named "linear" }),
    ("a", { measurements := [["y4"], ["y4"]], transition := .named "linear" })]
  estimationOptions := some {}

/-- C06, negative part: an accepted model with distinct names whose parameter index has a
duplicate: the covariance entries of (a-b, c) and of (a, b-c) get the same label "a-b-c". -/
theorem C06_duplicate_labels :
    (processModel Ex.hyphens).map (fun p => decide p.paramsIndex.Nodup) = .ok false ∧
    (allFactors Ex.hyphens).Nodup := by
  constructor
  · decide +kernel
  · decide

end Skill
