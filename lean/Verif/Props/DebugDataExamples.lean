import Verif.Props.DebugData
import Verif.Props.ParseParams2
import Verif.Props.FilterExamples
/- Concrete cases that meet the hypotheses of C51, C52, C54 and C55. -/
namespace Skill
open Spec

/-- C51: in the example model each period has a measurement. -/
theorem Ex.model2_measured : ∀ t, IsPeriod Ex.model2 t → ∃ v f, Measures Ex.model2 t v f ∧ ¬ ∃ g, Anchors Ex.model2 v g := by
  intro t ht
  have hlt : t < 4 := by
    obtain ⟨n, hn, ht⟩ := ht
    rw [IsNPeriods.unique hn Ex.model2_isNPeriods] at ht
    exact ht
  have hM : Measures Ex.model2 t "y1" "fac1" := by
    refine ⟨_, List.mem_cons_self, ?_⟩
    interval_cases t <;> exact ⟨_, rfl, by decide⟩
  refine ⟨"y1", "fac1", hM, ?_⟩
  rintro ⟨g, hg⟩
  exact Ex.model2_clean.notMeasured _ _ _ _ hg hM

example (outs : List (StepOut 3 2 3)) : ∃ pm, processModel Ex.model2 = .ok pm ∧ (outs.length = pm.updateInfo.length → ∃ rows, createFilteredStates outs pm.updateInfo = .ok rows ∧ rows.length = 12) := by
  obtain ⟨pm, h⟩ := Ex.model2_ok
  refine ⟨pm, h, fun hlen => ?_⟩
  obtain ⟨rows, h1, h2, _⟩ := C51_filtered_states_partial h Ex.model2_measured hlen
  have h4 := IsNPeriods.unique (isNPeriods_of_ok h) Ex.model2_isNPeriods
  exact ⟨rows, h1, by rw [h2, h4]⟩

/-- C54: the example model; fac1 is anchored, fac2 and other columns are not. -/
example (val : Loc → Rat) (pm) (h : processModel Ex.model2 = .ok pm) : ∃ out, anchorStatesDf id
      { columns := ["id", "fac1", "fac2", "fac3"], rows := [(2, fun c => if c = "fac1" then (5 : Rat) else 7)] } Ex.model2 (pm.paramsIndex.map (fun l => (l, val l))) = .ok out ∧
      out.rows.map (fun r => [r.2 "id", r.2 "fac1", r.2 "fac2"]) =
        [[7, val ⟨.controls, 2, "Q1_fac1", "constant"⟩ + 5 * val ⟨.loadings, 2, "Q1_fac1", "fac1"⟩, 7]] := by
  obtain ⟨out, ho, _, hl, hrows⟩ := C54_anchored_states h goodNames_model2 Ex.model2_clean Ex.model2_sameOrder
    (by
      rintro f ⟨spec, hs⟩
      simp only [Ex.model2, List.mem_cons, Prod.mk.injEq, List.not_mem_nil, or_false] at hs
      rcases hs with ⟨rfl, _⟩ | ⟨rfl, _⟩ | ⟨rfl, _⟩ <;> decide +kernel)
    ⟨4, Ex.model2_isNPeriods, by omega⟩ Ex.model2_nMixtures id
    (df := { columns := ["id", "fac1", "fac2", "fac3"], rows := [(2, fun c => if c = "fac1" then (5 : Rat) else 7)] }) (params := pm.paramsIndex.map (fun l => (l, val l))) (val := val)
    (by
      intro l hlm
      have hn := C06_index_unique_partial h goodNames_model2
      exact lookup_of_mem (by simpa [Function.comp_def] using hn) (List.mem_map.mpr ⟨l, (mem_paramsIndex_iff h l).mpr hlm, rfl⟩))
    (by
      rintro f ⟨spec, hs⟩
      simp only [Ex.model2, List.mem_cons, Prod.mk.injEq, List.not_mem_nil, or_false] at hs
      rcases hs with ⟨rfl, _⟩ | ⟨rfl, _⟩ | ⟨rfl, _⟩ <;> decide)
    (by
      intro r hr
      rw [List.mem_singleton.mp hr]
      exact ⟨4, Ex.model2_isNPeriods, by omega⟩)
  refine ⟨out, ho, ?_⟩
  obtain ⟨cells', hk, hun, hanch, _⟩ := hrows 0 2 _ rfl
  obtain ⟨r, hr⟩ := List.length_eq_one_iff.mp hl
  rw [hr] at hk ⊢
  simp only [List.getElem?_cons_zero, Option.some.injEq] at hk
  have hA : ∀ c, (∃ o, AnchoredIn Ex.model2 c o) → c = "fac1" := by
    rintro c ⟨o, a, ha, os, hos, hm⟩
    cases ha; cases hos
    simpa using (Prod.mk.inj (List.mem_singleton.mp hm)).1
  have e1 := hanch "fac1" "Q1" ⟨_, rfl, _, rfl, List.mem_singleton.mpr rfl⟩ (by rintro ⟨a, ha, hb⟩; cases ha; cases hb)
  have e2 := hun "id" (fun hc => absurd (hA _ hc) (by decide))
  have e3 := hun "fac2" (fun hc => absurd (hA _ hc) (by decide))
  subst hk
  simp only [List.map_cons, List.map_nil, e1, e2, e3]
  rfl

/-- C55, C52: the example run of the filter; the update table is arbitrary. -/
example {qr : QR} (hqr : ValidQR qr) (clip : ClipOptions) : ∃ r, logLikelihood qr Ex.fixed clip Ex.initial (flagLast true [Ex.meas0, Ex.meas1] ++ [Ex.anch]) = .ok r ∧
    ∀ (u : List URow) rows, createFilteredStates r.outs u = .ok rows → ∀ row ∈ rows, ∃ o ∈ r.outs, ∃ i : Fin 2, row.id = i.val ∧ ∀ f, (∃ e, o.states i e f ≤ row.values f) ∧ ∃ e, row.values f ≤ o.states i e f := by
  obtain ⟨r, hr⟩ := Ex.run_ok qr clip
  refine ⟨r, hr, fun u rows h => C55_convex hqr Ex.initial_weights ?_ hr h⟩
  intro a ha
  simp only [flagLast, List.cons_append, List.nil_append, List.mem_cons, List.not_mem_nil, or_false] at ha
  rcases ha with rfl | rfl | rfl <;> simp [Ex.meas0, Ex.meas1, Ex.anch]

/-- C53 -/
example : (∃ lo hi, (1, lo, hi) ∈ createStateRange [(0, 2), (1, 5), (1, 3)]) ∧ ¬ ∃ lo hi, (2, lo, hi) ∈ createStateRange [(0, 2), (1, 5), (1, 3)] := by
  rw [(C53_state_ranges _).2.1, (C53_state_ranges _).2.1]
  exact ⟨⟨5, by simp⟩, by simp⟩

end Skill
