import Verif.Props.Constraints
/-
Non-vacuity examples and counterexamples for C11–C18.
-/
namespace Skill
open Spec

theorem ok_of_toBool {β : Type _} {x : Py β} (h : x.toBool = true) : ∃ y, x = .ok y := by
  cases x with
  | error e => cases h
  | ok y => exact ⟨y, rfl⟩

/-- An accepted model. -/
theorem Ex.model2_ok : ∃ pm, processModel Ex.model2 = .ok pm := ok_of_toBool (by decide +kernel)

theorem Ex.model2_isNPeriods : IsNPeriods Ex.model2 4 := by
  obtain ⟨pm, h⟩ := Ex.model2_ok
  have h4 : (processModel Ex.model2).map (fun p => p.dimensions.nPeriods) = .ok 4 := by decide +kernel
  have := isNPeriods_of_ok h
  rw [h] at h4
  have h5 : pm.dimensions.nPeriods = 4 := Except.ok.inj h4
  rwa [h5] at this

/-- C12 and C17 are not vacuous: in the example y1 is normalized and Q1_fac1 anchors fac1. -/
example : (∃ spec, ("fac1", spec) ∈ Ex.model2.factors ∧ LoadingNorm spec 0 "y1" 1) ∧
    Anchors Ex.model2 "Q1_fac1" "fac1" ∧ DictKeys Ex.model2 := by
  refine ⟨⟨_, List.mem_cons_self, _, _, _, rfl, rfl, rfl, by decide⟩, ⟨"Q1", ⟨_, rfl, _, rfl, by decide⟩, by decide⟩,
    goodNames_model2.keys⟩

/-- C13 is not vacuous: two transitions in one stage. -/
example : StageOf Ex.model2 0 0 ∧ StageOf Ex.model2 1 0 ∧ ¬ StageOf Ex.model2 2 0 := by
  refine ⟨Or.inl ⟨_, rfl, by decide⟩, Or.inl ⟨_, rfl, by decide⟩, ?_⟩
  rintro (⟨sm, h1, h2⟩ | ⟨h, _⟩)
  · cases h1; revert h2; decide
  · cases h

/-- C11 is not vacuous. -/
example : Estimable Ex.model2 where
  names := goodNames_model2
  anchored := by
    rintro v f ⟨o, ⟨a, ha, os, hos, hm⟩, _⟩
    cases ha; cases hos
    simp only [List.mem_cons, Prod.mk.injEq, List.not_mem_nil, or_false] at hm
    rw [hm.1]
    exact ⟨_, List.mem_cons_self⟩
  mixtures := by
    rintro k ⟨o, ho, h⟩
    cases ho
    simp at h
    omega
  custom := by
    intro f spec fn ps hmem hs
    simp only [Ex.model2, List.mem_cons, Prod.mk.injEq, List.not_mem_nil, or_false] at hmem
    rcases hmem with ⟨rfl, rfl⟩ | ⟨rfl, rfl⟩ | ⟨rfl, rfl⟩ <;> simp at hs
  transition := Or.inl ⟨"fac1", _, "phi", List.mem_cons_self, Or.inr (Or.inr (Or.inl ⟨rfl, Or.inr rfl⟩))⟩

/-- C18 is not vacuous. -/
example : UnambiguousNorms Ex.model2 where
  dicts := by
    intro f spec t v x y hmem hx hy
    obtain ⟨ns, ls, d, h1, h2, h3, h4⟩ := hx
    obtain ⟨ns', ls', d', h1', h2', h3', h4'⟩ := hy
    rw [h1] at h1'; cases h1'
    rw [h2] at h2'; cases h2'
    rw [h3] at h3'; cases h3'
    simp only [Ex.model2, List.mem_cons, Prod.mk.injEq, List.not_mem_nil, or_false] at hmem
    have hlen : ∀ dd ∈ ls, dd.length ≤ 1 := by
      rcases hmem with ⟨rfl, rfl⟩ | ⟨rfl, rfl⟩ | ⟨rfl, rfl⟩ <;> simp at h1 <;> subst h1 <;> simp at h2 <;> subst h2 <;> decide
    have hd := hlen d (List.mem_of_getElem? h3)
    match d, hd, h4, h4' with
    | [a], _, h4, h4' =>
      simp only [List.mem_singleton] at h4 h4'
      rw [← h4'] at h4
      exact (Prod.mk.inj h4).2
  intercepts := by
    have key : ∀ (f : String) (spec : FactorSpec Rat) (t : Nat) (v : String) (x : Rat),
        (f, spec) ∈ Ex.model2.factors → InterceptNorm spec t v x → x = 0 := by
      intro f spec t v x hmem hx
      obtain ⟨ns, ls, d, h1, h2, h3, h4⟩ := hx
      simp only [Ex.model2, List.mem_cons, Prod.mk.injEq, List.not_mem_nil, or_false] at hmem
      have hlen : ∀ dd ∈ ls, ∀ q ∈ dd, q.2 = 0 := by
        rcases hmem with ⟨rfl, rfl⟩ | ⟨rfl, rfl⟩ | ⟨rfl, rfl⟩ <;> simp at h1 <;> subst h1 <;> simp at h2 <;>
          subst h2 <;> decide
      exact hlen d (List.mem_of_getElem? h3) _ h4
    intro f f' spec spec' t v x y hmem hmem' hx hy
    rw [key f spec t v x hmem hx, key f' spec' t v y hmem' hy]
  names := by
    rintro v f ⟨o, ⟨a, ha, os, hos, hm⟩, rfl⟩ ⟨t, g, spec, hmem, ms, h1, h2⟩
    cases ha; cases hos
    simp only [List.mem_cons, Prod.mk.injEq, List.not_mem_nil, or_false] at hm
    obtain ⟨rfl, rfl⟩ := hm
    simp only [Ex.model2, List.mem_cons, Prod.mk.injEq, List.not_mem_nil, or_false] at hmem
    have : ∀ dd ∈ spec.measurements, "Q1" ++ "_" ++ "fac1" ∉ dd := by
      rcases hmem with ⟨rfl, rfl⟩ | ⟨rfl, rfl⟩ | ⟨rfl, rfl⟩ <;> decide
    exact this ms (List.mem_of_getElem? h1) h2

/-- C16, negative part: with default options a constant factor has its shock sd fixed to 0 below
the lower bound 0.001. -/
theorem C16_fixed_below_bound : ∃ pm cs, processModel Ex.model2 = .ok pm ∧ pm.constraints = .ok cs ∧
    FixedTo pm.paramsIndex cs ⟨.shockSds, 0, "fac3", "-"⟩ 0 ∧
    (⟨.shockSds, 0, "fac3", "-"⟩, some (1 / 1000)) ∈ pm.paramsTemplate ∧ ¬ ((1 / 1000 : Rat) ≤ 0) := by
  obtain ⟨pm, h⟩ := Ex.model2_ok
  obtain ⟨cs, hc, hf⟩ := constraints_fix_iff h goodNames_model2.keys
  refine ⟨pm, cs, h, hc, (hf _ _).mpr (.shock (spec := _) (List.mem_cons_of_mem _ (List.mem_cons_of_mem _ List.mem_cons_self)) rfl
    ⟨4, Ex.model2_isNPeriods, by omega⟩), ?_, by norm_num⟩
  have : (processModel Ex.model2).map (fun p => decide
    ((⟨.shockSds, 0, "fac3", "-"⟩, some (1 / 1000)) ∈ p.paramsTemplate)) = .ok true := by decide +kernel
  rw [h] at this
  simpa using Except.ok.inj this

/-- Two factors, one name has hyphens. -/
def Ex.hyphens2 : ModelDict Rat where
  factors := [
    ("y-x-y", { measurements := [["y1"], ["y1"]], transition := .named "linear" }),
    ("x", { measurements := [["y2"], ["y2"]], transition := .named "linear" })]
  estimationOptions := some {}

/-- C14, negative part: the covariance entry of x and y-x-y (its label is "x-y-x-y") gets a lower
bound although it is not on the diagonal. -/
theorem C14_bound_off_diagonal :
    (processModel Ex.hyphens2).map (fun p => decide
      ((⟨.initialCholcovs, 0, "mixture_0", "x" ++ "-" ++ "y-x-y"⟩, some (1 / 1000)) ∈ p.paramsTemplate)) = .ok true ∧
    ¬ ∃ f, IsLatent Ex.hyphens2 f ∧ "x" ++ "-" ++ "y-x-y" = f ++ "-" ++ f := by
  refine ⟨by decide +kernel, ?_⟩
  rintro ⟨f, ⟨s, hs⟩, e⟩
  simp only [Ex.hyphens2, List.mem_cons, Prod.mk.injEq, List.not_mem_nil, or_false] at hs
  rcases hs with ⟨rfl, _⟩ | ⟨rfl, _⟩ <;> revert e <;> decide

/-- Two factors that share a measurement and normalize its intercept differently. -/
def Ex.sharedIntercept : ModelDict Rat where
  factors := [
    ("a", { measurements := [["y"], ["y"]], transition := .named "linear",
            normalizations := some { intercepts := some [[("y", 0)]] } }),
    ("b", { measurements := [["y"], ["y"]], transition := .named "linear",
            normalizations := some { intercepts := some [[("y", 1)]] } })]
  estimationOptions := some {}

/-- C18, negative part: an accepted model whose constraints fix one parameter to 0 and to 1. -/
theorem C18_contradicting_fixes : ∃ pm cs, processModel Ex.sharedIntercept = .ok pm ∧ pm.constraints = .ok cs ∧
    FixedTo pm.paramsIndex cs ⟨.controls, 0, "y", "constant"⟩ 0 ∧
    FixedTo pm.paramsIndex cs ⟨.controls, 0, "y", "constant"⟩ 1 := by
  obtain ⟨pm, h⟩ : ∃ pm, processModel Ex.sharedIntercept = .ok pm := ok_of_toBool (by decide +kernel)
  have hk : DictKeys Ex.sharedIntercept := ⟨by decide, by rintro a os ⟨⟩⟩
  obtain ⟨cs, hc, hf⟩ := constraints_fix_iff h hk
  exact ⟨pm, cs, h, hc, (hf _ _).mpr (.intercept (f := "a") List.mem_cons_self ⟨_, _, _, rfl, rfl, rfl, by decide⟩),
    (hf _ _).mpr (.intercept (f := "b") (List.mem_cons_of_mem _ List.mem_cons_self) ⟨_, _, _, rfl, rfl, rfl, by decide⟩)⟩

/-- A model in which all factors are constant; both transitions are in the same stage. -/
def Ex.allConstant : ModelDict Rat where
  factors := [("a", { measurements := [["y"], ["y"], ["y"]], transition := .named "constant" })]
  stagemap := some [0, 0]
  estimationOptions := some {}

/-- C11, negative part: the stage constraint of an accepted model selects no parameter. -/
theorem C11_empty_selector : ∃ pm cs, processModel Ex.allConstant = .ok pm ∧ pm.constraints = .ok cs ∧
    ∃ id ss, (id, .pairwiseEquality ss) ∈ cs ∧ .catPeriod .transition 0 ∈ ss ∧
      selected pm.paramsIndex (.catPeriod .transition 0) = [] := by
  obtain ⟨pm, h⟩ : ∃ pm, processModel Ex.allConstant = .ok pm := ok_of_toBool (by decide +kernel)
  have hk : DictKeys Ex.allConstant := ⟨by decide, by rintro a os ⟨⟩⟩
  obtain ⟨cs, hc, hf⟩ := C13_stage_equality h hk
  obtain ⟨id, ss, h1, h2, h3⟩ := (hf 0 1 (by decide)).1.mpr ⟨0, Or.inl ⟨_, rfl, rfl⟩, Or.inl ⟨_, rfl, rfl⟩⟩
  refine ⟨pm, cs, h, hc, id, ss, h1, h2, ?_⟩
  have : (processModel Ex.allConstant).map (fun p => decide
    (selected p.paramsIndex (.catPeriod .transition 0) = [])) = .ok true := by decide +kernel
  rw [h] at this
  simpa using Except.ok.inj this

end Skill
