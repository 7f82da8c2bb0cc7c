import Verif.Props.FilteredEquivalence
import Verif.Props.RescalingExamples
import Verif.Props.FilteredStatesExamples

/-! Examples for C107. -/

namespace Skill
open Matrix MeasureTheory ProbabilityTheory Spec
namespace Ex

/-- Filtered states exist at all values of parameters. -/
theorem filters (qr : QR) {m : ModelDict ℝ} {pm : Processed ℝ} (hpm : processModel m = .ok pm) (hg : GoodNames m) (hm : LinearModel m 1) (hq : ∀ f, IsLatent m f → querySafe f) (hnames : ∀ f, IsLatent m f → f ≠ "period" ∧ f ≠ "id")
    {df : LongData ℝ} (hi : IndexOk df) (hu : NoUnusedPeriods df) {ids pers : List Int} (hids : IdsOf df ids) (hpers : PeriodsOf df pers) (hdata : DataOk m df ids pers) (custom : String → CustomFn) (nan : ℝ) (val : Loc → ℝ) :
    ∃ (params : List (Loc × ℝ)) (out : FilteredStates), getFilteredStates qr custom nan m df params = .ok out ∧ (params.map Prod.fst).Nodup ∧ (∀ l x, (l, x) ∈ params → x = val l) := by
  have hfst : (pm.paramsIndex.map (fun l => (l, val l))).map Prod.fst = pm.paramsIndex := by rw [List.map_map]; exact List.map_id _
  have hnd : ((pm.paramsIndex.map (fun l => (l, val l))).map Prod.fst).Nodup := by rw [hfst]; exact C06_index_unique_partial hpm hg
  have hvals : ∀ l x, (l, x) ∈ pm.paramsIndex.map (fun l => (l, val l)) → x = val l := by
    intro l x h
    obtain ⟨l', _, h⟩ := List.mem_map.mp h
    rw [Prod.mk.injEq] at h
    rw [← h.1, ← h.2]
  obtain ⟨out, hout, _⟩ := C86_get_filtered_states qr hpm hg hm.anchoring.1 hm.anchoring.2.1 hm.anchoring.2.2 hq hnames hm.periods (fun t ht => by
      obtain ⟨v, f, h⟩ := hm.measured t ht
      exact ⟨v, f, h, fun ⟨g, hg⟩ => hm.anchoring.1.notMeasured v g t f hg h⟩)
    hm.mixture (Or.inl rfl) hi hu hids hpers hdata custom nan hnd (fun l hl => by rw [hfst]; exact (mem_paramsIndex_iff hpm l).mpr hl) hvals (by
      rintro ⟨f, spec⟩ hmem
      rcases hm.transitions f spec hmem with h | h <;> rw [h] <;> exact ⟨rfl, fun h => by simp at h⟩)
  exact ⟨_, out, hout, hnd, hvals⟩

/-- C107 applies to a change of units: in the second period the filtered state `x` of factor "a" becomes `3 * x + 2`, the filtered state of "b" becomes `4 * x + 1`. The anchored state of "a" does not change. -/
theorem anchoredModel_rescaled_states (custom : String → CustomFn) (nan : ℝ) : ∃ (qr : QR) (val' : Loc → ℝ) (params params' : List (Loc × ℝ)) (out out' : FilteredStates) (cells cells' anchored anchored' : String → ℝ),
    getFilteredStates qr custom nan anchoredModel anchoredData params = .ok out ∧ getFilteredStates qr custom nan anchoredModel anchoredData params' = .ok out' ∧
    (∀ l x, (l, x) ∈ params → x = linearValues l) ∧ (∀ l x, (l, x) ∈ params' → x = val' l) ∧
    out.unanchored.states.rows[5]? = some (1, cells) ∧ out'.unanchored.states.rows[5]? = some (1, cells') ∧ cells' "a" = 3 * cells "a" + 2 ∧
    out.anchored.states.rows[5]? = some (1, anchored) ∧ out'.anchored.states.rows[5]? = some (1, anchored') ∧ anchored' "a" = anchored "a" ∧ anchored' "b" = 4 * anchored "b" + 1 := by
  obtain ⟨qr, hqr⟩ := validQR
  obtain ⟨pm, hpm, _⟩ := anchoredModel_ok
  have hr : Rescales anchoredModel otherScale otherLocation linearValues (rescaledValues anchoredModel otherScale otherLocation linearValues) := rescaledValues_rescales anchoredModel_names
  have hev := filters qr hpm anchoredModel_names anchoredModel_linear (fun f hf => (anchoredModel_safe f hf).1) (fun f hf => (anchoredModel_safe f hf).2) anchoredData_index.1 anchoredData_index.2.1 anchoredData_ids.1 anchoredData_ids.2 anchoredData_ok custom nan
  obtain ⟨params, out, hout, hn, hval⟩ := hev linearValues
  obtain ⟨params', out', hout', hn', hval'⟩ := hev (rescaledValues anchoredModel otherScale otherLocation linearValues)
  have h := fun f hf => C107_units hqr hqr hpm anchoredModel_linear (Or.inr rfl) anchoredModel_names (fun f hf => (anchoredModel_safe f hf).2) (by rintro o x ⟨⟩ ⟨⟩) anchoredModel_canRescale hr anchoredValues_proper custom custom nan nan
    anchoredData_index.1 anchoredData_index.2.1 anchoredData_ids.1 anchoredData_ids.2 hn hn' hval hval' hout hout' 1 2 anchoredModel_linear.periods (by simp) ⟨_, _, anchoredData_describes⟩ (f := f) hf
  obtain ⟨⟨c1, c2, h1, h2, h3⟩, a1, a2, h4, h5, h6, _⟩ := h "a" ⟨_, List.mem_cons_self⟩
  obtain ⟨_, a1', a2', h4', h5', _, h7⟩ := h "b" ⟨_, List.mem_cons_of_mem _ List.mem_cons_self⟩
  obtain rfl : a1' = a1 := by simpa using h4'.symm.trans h4
  obtain rfl : a2' = a2 := by simpa using h5'.symm.trans h5
  refine ⟨qr, _, params, params', out, out', c1, c2, a1', a2', hout, hout', hval, hval', h1, h2, ?_, h4, h5, h6 ⟨"q", (anchoredModel_anchoredIn _ _).mpr ⟨rfl, rfl⟩⟩, ?_⟩
  · rw [h3]
    norm_num [otherScale, otherLocation]
  · rw [h7 (fun ⟨o, ho⟩ => absurd ((anchoredModel_anchoredIn _ _).mp ho).1 (by decide))]
    norm_num [otherScale, otherLocation, show "b" ≠ "a" by decide]

theorem linearModel_factors (f : String) (hf : IsLatent linearModel f) : querySafe f ∧ f ≠ "period" ∧ f ≠ "id" := by
  obtain ⟨spec, hmem⟩ := hf
  simp only [linearModel, List.mem_cons, Prod.mk.injEq, List.not_mem_nil, or_false] at hmem
  rcases hmem with ⟨rfl, _⟩ | ⟨rfl, _⟩ <;> decide

/-- C107 applies to a model with the transition function "constant" and the same model with a linear transition function. -/
theorem allLinear_states (custom : String → CustomFn) (nan : ℝ) : ∃ (qr : QR) (params params' : List (Loc × ℝ)) (out out' : FilteredStates) (cells cells' : String → ℝ),
    getFilteredStates qr custom nan linearModel linearData params = .ok out ∧ getFilteredStates qr custom nan allLinear linearData params' = .ok out' ∧
    (∀ l x, (l, x) ∈ params → x = linearValues l) ∧ (∀ l x, (l, x) ∈ params' → x = keepValues l) ∧
    out.unanchored.states.rows[5]? = some (1, cells) ∧ out'.unanchored.states.rows[5]? = some (1, cells') ∧ cells' "a" = cells "a" ∧ cells' "b" = cells "b" := by
  obtain ⟨qr, hqr⟩ := validQR
  obtain ⟨pm, hpm, _⟩ := linearModel_ok
  obtain ⟨pm', hpm'⟩ := allLinear_ok
  have hl : ∀ f, IsLatent allLinear f → IsLatent linearModel f := fun f hf => by rw [← mem_latents_iff] at hf ⊢; exact hf
  obtain ⟨params, out, hout, hn, hval⟩ := filters qr hpm linearModel_names linearModel_linear (fun f hf => (linearModel_factors f hf).1) (fun f hf => (linearModel_factors f hf).2) linearData_index.1 linearData_index.2.1 linearData_ids.1 linearData_ids.2
    linearData_ok custom nan linearValues
  obtain ⟨params', out', hout', hn', hval'⟩ := filters qr hpm' (makeLinear_names linearModel_names) (makeLinear_linear linearModel_linear) (fun f hf => (linearModel_factors f (hl f hf)).1) (fun f hf => (linearModel_factors f (hl f hf)).2)
    linearData_index.1 linearData_index.2.1 linearData_ids.1 linearData_ids.2 allLinear_data custom nan keepValues
  have h := fun f hf => C107_constant_is_linear hqr hqr hpm hpm' linearModel_linear (Or.inr rfl) linearModel_names (fun f hf => (linearModel_factors f hf).2) (by rintro o x ⟨⟩ ⟨⟩)
    (fun f hp _ => by
      obtain rfl : f = "b" := by simpa using hp
      exact ⟨_, List.mem_cons_of_mem _ List.mem_cons_self, rfl⟩)
    keepValues_keeps linearValues_proper custom custom nan nan linearData_index.1 linearData_index.2.1 linearData_ids.1 linearData_ids.2 hn hn' hval hval' hout hout' 1 2 linearModel_linear.periods (by simp)
    (linearData_describes_all (by norm_num)) (f := f) hf
  obtain ⟨⟨c1, c2, h1, h2, h3⟩, _⟩ := h "a" ⟨_, List.mem_cons_self⟩
  obtain ⟨⟨d1, d2, h1', h2', h3'⟩, _⟩ := h "b" ⟨_, List.mem_cons_of_mem _ List.mem_cons_self⟩
  obtain rfl : d1 = c1 := by simpa using h1'.symm.trans h1
  obtain rfl : d2 = c2 := by simpa using h2'.symm.trans h2
  exact ⟨qr, params, params', out, out', d1, d2, hout, hout', hval, hval', h1, h2, h3, h3'⟩

/-- C107 applies to two orders of factors and measurements. -/
theorem reversedModel_states (custom : String → CustomFn) (nan : ℝ) : ∃ (qr : QR) (params params' : List (Loc × ℝ)) (out out' : FilteredStates) (cells cells' : String → ℝ),
    getFilteredStates qr custom nan linearModel linearData params = .ok out ∧ getFilteredStates qr custom nan reversedModel linearData params' = .ok out' ∧
    (∀ l x, (l, x) ∈ params → x = linearValues l) ∧ (∀ l x, (l, x) ∈ params' → x = reversedValues l) ∧
    out.unanchored.states.rows[5]? = some (1, cells) ∧ out'.unanchored.states.rows[5]? = some (1, cells') ∧ cells' "a" = cells "a" ∧ cells' "b" = cells "b" := by
  obtain ⟨qr, hqr⟩ := validQR
  obtain ⟨pm, hpm, _⟩ := linearModel_ok
  obtain ⟨pm', hpm', _⟩ := reversedModel_ok
  have hl : ∀ f, IsLatent reversedModel f → IsLatent linearModel f := fun f hf => (reversedModel_same.latent f).mpr hf
  obtain ⟨params, out, hout, hn, hval⟩ := filters qr hpm linearModel_names linearModel_linear (fun f hf => (linearModel_factors f hf).1) (fun f hf => (linearModel_factors f hf).2) linearData_index.1 linearData_index.2.1 linearData_ids.1 linearData_ids.2
    linearData_ok custom nan linearValues
  obtain ⟨params', out', hout', hn', hval'⟩ := filters qr hpm' reversedModel_names reversedModel_linear (fun f hf => (linearModel_factors f (hl f hf)).1) (fun f hf => (linearModel_factors f (hl f hf)).2)
    linearData_index.1 linearData_index.2.1 linearData_ids.1 linearData_ids.2 reversedModel_data custom nan reversedValues
  have h := fun f hf => C107_order_does_not_matter hqr hqr hpm hpm' linearModel_linear reversedModel_linear (Or.inr rfl) linearModel_names reversedModel_names (fun f hf => (linearModel_factors f hf).2) (by rintro o x ⟨⟩ ⟨⟩) (by rintro o x ⟨⟩ ⟨⟩)
    reversedModel_same reversedValues_same linearValues_proper custom custom nan nan linearData_index.1 linearData_index.2.1 linearData_ids.1 linearData_ids.2 hn hn' hval hval' hout hout' 1 2 linearModel_linear.periods (by simp)
    (linearData_describes_all (by norm_num)) (f := f) hf
  obtain ⟨⟨c1, c2, h1, h2, h3⟩, _⟩ := h "a" ⟨_, List.mem_cons_self⟩
  obtain ⟨⟨d1, d2, h1', h2', h3'⟩, _⟩ := h "b" ⟨_, List.mem_cons_of_mem _ List.mem_cons_self⟩
  obtain rfl : d1 = c1 := by simpa using h1'.symm.trans h1
  obtain rfl : d2 = c2 := by simpa using h2'.symm.trans h2
  exact ⟨qr, params, params', out, out', d1, d2, hout, hout', hval, hval', h1, h2, h3, h3'⟩

end Ex
end Skill
