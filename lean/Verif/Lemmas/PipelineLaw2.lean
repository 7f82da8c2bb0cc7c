import Verif.Lemmas.PipelineLaw
/-
The statistical model of the user (Spec/LabelModel.lean) and the one that belongs to the arrays of the likelihood function (continued).
-/
namespace Skill
open Matrix MeasureTheory ProbabilityTheory Spec

/-! ### transition functions -/

theorem transitionNames_paramNames {fs : List String} {s : TransSpec} {names : List String} {fn : String} (custom : CustomFn) (h : transitionNamesOf fs s = .ok (names, fn)) :
    names = paramNamesOf fs (transFnOf custom s) := by
  cases s with
  | named name =>
    simp only [transitionNamesOf] at h
    simp only [transFnOf, paramNamesOf]
    cases hb : builtinParamNames name with
    | none => rw [hb] at h; cases h
    | some g =>
      rw [hb] at h
      have := Except.ok.inj h
      rw [Prod.mk.injEq] at this
      exact this.1.symm
  | custom fname registered =>
    cases fname with
    | none => cases h
    | some n =>
      cases registered with
      | none => cases h
      | some ps =>
        have := Except.ok.inj h
        rw [Prod.mk.injEq] at this
        exact this.1.symm

/-- The combined transition function by label. -/
theorem transition_label {m : ModelDict ℝ} {pm : Processed ℝ} (hpm : processModel m = .ok pm) (hk : DictKeys m) (custom : String → CustomFn) (val : Loc → ℝ) (t : ℕ)
    (hu : ∀ fs ∈ m.factors, TransFn.Usable (allFactors m) (fun name => val ⟨.transition, t, fs.1, name⟩) (transFnOf (custom fs.1) fs.2.transition)) (x : String → ℝ) :
    transitionFunction (allFactors m) (transitionFns custom m) (transParams pm val t) ((allFactors m).map x) =
      .ok (m.factors.map (fun fs => nextValue (allFactors m) x (fun name => val ⟨.transition, t, fs.1, name⟩) fs.1 (transFnOf (custom fs.1) fs.2.transition))) := by
  have htr := (labels_of_ok hpm).2.2.2.2.2.1
  obtain ⟨h1, _, h2, _⟩ := getTransitionInfo_spec htr
  have hl : (getLabels m pm.dimensions).allFactors = allFactors m := rfl
  rw [hl] at h2
  have := C50_combined_function (fs := allFactors m) (fns := transitionFns custom m) (by
    intro fn hfn
    obtain ⟨fs, hfs, rfl⟩ := List.mem_map.mp hfn
    exact List.mem_append_left _ (List.mem_map.mpr ⟨fs, hfs, rfl⟩)) x (fun f name => val ⟨.transition, t, f, name⟩) (params := transParams pm val t) (by
    intro fn hfn
    obtain ⟨fs, hfs, rfl⟩ := List.mem_map.mp hfn
    obtain ⟨pn, hpn, hpn1, fnn, hpn2⟩ := forall₂_mem h2 hfs
    refine Dict.getItem_of_mem ?_ ?_
    · unfold transParams
      rw [List.map_map]
      show (pm.transitionInfo.paramNames.map Prod.fst).Nodup
      rw [h1]
      exact hk.factors
    · refine List.mem_map.mpr ⟨pn, hpn, ?_⟩
      rw [hpn1, transitionNames_paramNames (custom fs.1) hpn2]) (by
    intro fn hfn
    obtain ⟨fs, hfs, rfl⟩ := List.mem_map.mp hfn
    exact hu fs hfs)
  rw [this]
  unfold transitionFns
  rw [List.map_map]
  rfl

/-- The values of all factors as a function of their names. -/
noncomputable def byName (m : ModelDict ℝ) (s : Fin (nLat m + nObsd m) → ℝ) (g : String) : ℝ := (List.ofFn s).getD ((allFactors m).idxOf g) 0

theorem byName_allName {m : ModelDict ℝ} (hg : GoodNames m) (s : Fin (nLat m + nObsd m) → ℝ) (g : Fin (nLat m + nObsd m)) : byName m s (allName m g) = s g := by
  unfold byName
  rw [nodup_get? hg.distinct (allName_get g), List.getD_eq_getElem?_getD, List.getElem?_ofFn, dif_pos g.isLt]
  rfl

theorem map_byName {m : ModelDict ℝ} {s : Fin (nLat m + nObsd m) → ℝ} {x : String → ℝ} (hx : ∀ g : Fin (nLat m + nObsd m), x (allName m g) = s g) : (allFactors m).map x = List.ofFn s := by
  rw [allFactors_ofFn, List.map_ofFn]
  congr 1
  funext g
  exact hx g

theorem hasTransition_iff {m : ModelDict ℝ} (hk : DictKeys m) {f name : String} {spec : FactorSpec ℝ} (hf : (f, spec) ∈ m.factors) : HasTransition m f name ↔ spec.transition = .named name := by
  constructor
  · rintro ⟨spec', h1, h2⟩
    have : spec' = spec := by
      have := Dict.getItem_of_mem hk.factors h1
      rw [Dict.getItem_of_mem hk.factors hf] at this
      exact (Except.ok.inj this).symm
    rw [← this]
    exact h2
  · intro h
    exact ⟨spec, hf, h⟩

open Classical in
/-- Linear models: the transition function of the likelihood by name. -/
theorem linear_label {m : ModelDict ℝ} {k : ℕ} (hm : LinearModel m k) {pm : Processed ℝ} (hpm : processModel m = .ok pm) (hg : GoodNames m) (custom : String → CustomFn) (val : Loc → ℝ) (t : ℕ)
    {s : Fin (nLat m + nObsd m) → ℝ} {x : String → ℝ} (hx : ∀ g : Fin (nLat m + nObsd m), x (allName m g) = s g) (f : Fin (nLat m)) :
    transitionValues (nLat m) (allFactors m) (transitionFns custom m) (transParams pm val t) s f =
      if HasTransition m (latName m f) "constant" then x (latName m f) else linearValue (allFactors m) x (fun name => val ⟨.transition, t, latName m f, name⟩) := by
  have h := transition_label hpm hg.keys custom val t (by
    intro fs hfs
    rcases hm.transitions fs.1 fs.2 hfs with h | h
    · rw [h]; exact ⟨rfl, fun h => by simp at h⟩
    · rw [h]; exact ⟨rfl, fun h => by simp at h⟩) x
  unfold transitionValues
  rw [← map_byName hx, h]
  dsimp only
  have hf : m.factors[f.val]? = some m.factors[f.val] := List.getElem?_eq_getElem f.isLt
  have hfn : m.factors[f.val].1 = latName m f := by
    have h1 := latName_get f
    rw [List.getElem?_map, hf] at h1
    exact Option.some.inj h1
  rw [List.getD_eq_getElem?_getD, List.getElem?_map, hf, Option.map_some, Option.getD_some]
  rw [hfn]
  have hmem : (latName m f, m.factors[f.val].2) ∈ m.factors := by rw [← hfn]; exact List.getElem_mem _
  rw [hasTransition_iff hg.keys hmem]
  rcases hm.transitions _ _ hmem with h | h
  · rw [h]; simp [nextValue, transFnOf]
  · rw [h]; simp [nextValue, transFnOf]

theorem linearValue_eq {m : ModelDict ℝ} {s : Fin (nLat m + nObsd m) → ℝ} {x : String → ℝ} (hx : ∀ g : Fin (nLat m + nObsd m), x (allName m g) = s g) (v : String → ℝ) :
    linearValue (allFactors m) x v = (fun g : Fin (nLat m + nObsd m) => v (allName m g)) ⬝ᵥ s + v "constant" := by
  unfold linearValue linearTerms
  rw [allFactors_ofFn, List.map_ofFn, List.sum_ofFn]
  congr 1
  exact Finset.sum_congr rfl (fun g _ => by simp only [Function.comp, hx])

theorem affine_label {m : ModelDict ℝ} {k : ℕ} (hm : LinearModel m k) {pm : Processed ℝ} (hpm : processModel m = .ok pm) (hg : GoodNames m) (custom : String → CustomFn) (val : Loc → ℝ) (nObs nT : ℕ)
    (con : Fin (nT + 2) → Fin nObs → Fin (nCon m) → ℝ) (obs : Fin (nT + 2) → Fin nObs → Fin (nObsd m) → ℝ) : AffineTransitions (labelFixed custom m pm val nObs nT con obs) := by
  classical
  intro t
  refine ⟨fun f => if HasTransition m (latName m f) "constant" then Pi.single (Fin.castAdd (nObsd m) f) 1 else fun g => val ⟨.transition, t, latName m f, allName m g⟩,
    fun f => if HasTransition m (latName m f) "constant" then 0 else val ⟨.transition, t, latName m f, "constant"⟩, ?_⟩
  funext s f
  have h := linear_label hm hpm hg custom val t.val (s := s) (byName_allName hg s) f
  refine h.trans ?_
  by_cases hc : HasTransition m (latName m f) "constant"
  · simp only [if_pos hc]
    rw [← allName_castAdd, byName_allName hg, single_dotProduct, one_mul, add_zero]
  · simp only [if_neg hc]
    exact linearValue_eq (byName_allName hg s) _

theorem outcomeOf_eq (m : ModelDict ℝ) (f : String) : outcomeOf m f = outcome m f := by
  unfold outcomeOf outcome outcomesOf Dict.get?
  generalize (m.anchoring.bind AnchoringSpec.outcomes).getD [] = d
  induction d with
  | nil => rfl
  | cons kv d ih =>
    obtain ⟨k, v⟩ := kv
    rw [List.find?_cons, List.lookup_cons]
    by_cases h : f = k
    · subst h; simp
    · have h1 : (f == k) = false := by simpa using h
      have h2 : (k == f) = false := by simpa using Ne.symm h
      rw [h1]
      simp only [h2]
      exact ih

theorem scalingOf_eq (m : ModelDict ℝ) (val : Loc → ℝ) (t : ℕ) (f : String) : scalingOf m val t f = anchorScale m val t f := by
  unfold scalingOf anchorScale
  rw [outcomeOf_eq]
  cases outcome m f <;> rfl

theorem constantOf_eq (m : ModelDict ℝ) (val : Loc → ℝ) (t : ℕ) (f : String) : constantOf m val t f = anchorConstant m val t f := by
  unfold constantOf anchorConstant
  rw [outcomeOf_eq]
  cases outcome m f <;> simp

/-- Factors that are not anchored. -/
theorem anchor_none {m : ModelDict ℝ} (hk : DictKeys m) {f : String} (h : ∀ o, ¬AnchoredIn m f o) (val : Loc → ℝ) (t : ℕ) : anchorScale m val t f = 1 ∧ anchorConstant m val t f = 0 := by
  have : outcome m f = none := by
    cases ho : outcome m f with
    | none => rfl
    | some o => exact absurd ((outcomeOf_some hk).mp ((outcomeOf_eq m f).trans ho)) (h o)
  unfold anchorScale anchorConstant
  rw [this]
  exact ⟨rfl, rfl⟩

/-- Anchored factors. -/
theorem anchor_some {m : ModelDict ℝ} (hk : DictKeys m) {f o : String} (h : AnchoredIn m f o) (val : Loc → ℝ) (t : ℕ) :
    anchorScale m val t f = val ⟨.loadings, t, o ++ "_" ++ f, f⟩ ∧ (AnchorFlag m AnchoringSpec.ignoreConstant → anchorConstant m val t f = 0) ∧
      (¬AnchorFlag m AnchoringSpec.ignoreConstant → anchorConstant m val t f = val ⟨.controls, t, o ++ "_" ++ f, "constant"⟩) := by
  have : outcome m f = some o := (outcomeOf_eq m f).symm.trans ((outcomeOf_some hk).mpr h)
  unfold anchorScale anchorConstant
  rw [this]
  exact ⟨rfl, fun h => if_pos h, fun h => if_neg h⟩

/-- Observed factors are not anchored. -/
theorem anchor_observed {m : ModelDict ℝ} (hg : GoodNames m) (hc : CleanAnchoring m) (val : Loc → ℝ) (t : ℕ) (a : Fin (nObsd m)) :
    anchorScale m val t (obsName m a) = 1 ∧ anchorConstant m val t (obsName m a) = 0 := by
  refine anchor_none hg.keys (fun o h => ?_) val t
  obtain ⟨spec, hf⟩ := hc.latent _ o h
  exact obsName_not_latent hg a (List.mem_map.mpr ⟨_, hf, rfl⟩)

end Skill
