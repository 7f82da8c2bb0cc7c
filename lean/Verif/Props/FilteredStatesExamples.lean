import Verif.Props.FilteredStates
import Verif.Props.PipelineExamples
/-
C85 and C86 apply to the example of Props/PipelineExamples.lean.
-/
namespace Skill
namespace Ex
open MeasureTheory ProbabilityTheory Spec

/-- C85 and C86 apply to the example: the filtered state of individual 2 in period 1. There is a parameter that is not used by the model. -/
theorem linearModel_filtered (custom : String → CustomFn) (nan : ℝ) : ∃ (qr : QR) (params : List (Loc × ℝ)) (out : FilteredStates) (updates : List (Nat × String))
    (mean : (Fin updates.length → ℝ) → ℝ) (Ω : Type) (_ : MeasurableSpace Ω) (P : Measure Ω) (E : Ω → Fin 1) (Z : Noise → Ω → ℝ) (cells : String → ℝ), ValidQR qr ∧ (⟨.loadings, 7, "y1", "a"⟩ : Loc) ∈ params.map Prod.fst ∧
      getFilteredStates qr custom nan linearModel linearData params = .ok out ∧ RandomNoise P linearValues E Z ∧
      (let data := fun ω => observedData updates (linearCovariates.only (fun s v => s ≤ 1 ∧ IsMeasurement linearModel s v)) (measurementValue linearModel linearValues linearCovariates (E ω) (fun a => Z a ω))
       P[fun ω => latentStates linearModel linearValues linearCovariates (E ω) (fun a => Z a ω) 1 "a" | MeasurableSpace.comap data inferInstance] =ᵐ[P] fun ω => mean (data ω)) ∧
      out.unanchored.states.columns = ["a", "b", "period", "id"] ∧ out.unanchored.states.rows.length = 6 ∧ out.unanchored.states.rows[5]? = some (1, cells) ∧ cells "id" = 2 ∧
      cells "a" = mean (observedData updates (linearCovariates.only (fun s v => s ≤ 1 ∧ IsMeasurement linearModel s v)) (fun t _ => 3 + 10 * (t + 1))) := by
  obtain ⟨qr, hqr⟩ := validQR
  obtain ⟨pm, hpm, hper, hupd⟩ := linearModel_ok
  obtain ⟨Ω, hΩ, P, E, Z, hP, hZ⟩ := exists_randomNoise (k := 1) (val := linearValues) (by intro e _; simp [linearValues]) (by simp [linearValues])
  have hclean : CleanAnchoring linearModel := ⟨by rintro f o ⟨a, ⟨⟩, _⟩, fun v f t g h => absurd h (linearModel_noAnchors v f), fun v f g h => absurd h (linearModel_noAnchors v f)⟩
  have hnames : ∀ f, IsLatent linearModel f → querySafe f ∧ f ≠ "period" ∧ f ≠ "id" := by
    rintro f ⟨spec, hmem⟩
    simp only [linearModel, List.mem_cons, Prod.mk.injEq, List.not_mem_nil, or_false] at hmem
    rcases hmem with ⟨rfl, rfl⟩ | ⟨rfl, rfl⟩ <;> decide
  have ha : IsLatent linearModel "a" := ⟨_, List.mem_cons_self⟩
  have hN : IsNPeriods linearModel 2 := hper ▸ isNPeriods_of_ok hpm
  let params : List (Loc × ℝ) := (⟨.loadings, 7, "y1", "a"⟩, linearValues ⟨.loadings, 7, "y1", "a"⟩) :: pm.paramsIndex.map (fun l => (l, linearValues l))
  have hfst : params.map Prod.fst = ⟨.loadings, 7, "y1", "a"⟩ :: pm.paramsIndex := by
    simp only [params, List.map_cons, List.map_map]
    exact congrArg _ (List.map_id _)
  have hnot : (⟨.loadings, 7, "y1", "a"⟩ : Loc) ∉ pm.paramsIndex := by
    intro h
    have hp : IsPeriod linearModel 7 := by
      cases (mem_paramsIndex_iff hpm _).mp h with
      | loading _ h =>
        rcases h with ⟨spec, hf, ms, hms, _⟩ | ⟨h, _⟩
        · exact ⟨_, hN, lt_of_lt_of_le (List.getElem?_eq_some_iff.mp hms).1 (hN.2 _ spec hf)⟩
        · exact h
    rw [linearModel_period] at hp
    omega
  have hnodup : (params.map Prod.fst).Nodup := by
    rw [hfst]
    exact List.nodup_cons.mpr ⟨hnot, C06_index_unique_partial hpm linearModel_names⟩
  have hvals : ∀ l x, (l, x) ∈ params → x = linearValues l := by
    intro l x h
    rcases List.mem_cons.mp h with h | h
    · obtain ⟨rfl, rfl⟩ := Prod.mk.inj h
      rfl
    obtain ⟨l', _, h⟩ := List.mem_map.mp h
    rw [Prod.mk.injEq] at h
    rw [← h.1, ← h.2]
  obtain ⟨out, hout, hcols, _, hlen, _⟩ := C86_get_filtered_states qr hpm linearModel_names hclean (by rintro a os ⟨⟩) (noNameClash_of_none rfl) (fun f hf => (hnames f hf).1) (fun f hf => (hnames f hf).2)
    linearModel_linear.periods (fun t ht => by
      obtain ⟨v, f, h⟩ := linearModel_linear.measured t ht
      exact ⟨v, f, h, fun ⟨g, hg⟩ => linearModel_noAnchors v g hg⟩)
    linearModel_linear.mixture (Or.inl rfl) linearData_index.1 linearData_index.2.1 linearData_ids.1 linearData_ids.2 linearData_ok custom nan hnodup
    (fun l hl => by rw [hfst]; exact List.mem_cons_of_mem _ ((mem_paramsIndex_iff hpm l).mpr hl)) hvals (by
    intro fs hmem
    simp only [linearModel, List.mem_cons, List.not_mem_nil, or_false] at hmem
    rcases hmem with rfl | rfl
    · exact ⟨rfl, fun h => by simp at h⟩
    · exact ⟨rfl, fun h => by simp at h⟩)
  obtain ⟨updates, hen, mean, _, hlaw, hrows⟩ := C85_filtered_states hqr hpm linearModel_linear (Or.inl rfl) linearModel_names (fun f hf => (hnames f hf).2) (by rintro o x ⟨⟩ ⟨⟩) linearValues_proper custom nan
  obtain ⟨_, hrow⟩ := hrows linearData [1, 2, 3] [10, 20] params out linearData_index.1 linearData_index.2.1 linearData_ids.1 linearData_ids.2 hnodup hvals hout
  obtain ⟨⟨cells, h1, h2, h3, h4⟩, _⟩ := hrow 1 2 linearCovariates _ linearModel_linear.periods (by simp) linearData_describes
  exact ⟨qr, params, out, updates, fun y => mean linearCovariates 1 y "a", Ω, hΩ, P, E, Z, cells, hqr, by rw [hfst]; exact List.mem_cons_self, hout, hZ,
    (hlaw linearCovariates 1 "a" linearModel_linear.periods ha P E Z hZ).2.2, hcols, (hlen 2 hN).1, h1, by rw [h3]; norm_num, h4 "a" ha⟩

end Ex
end Skill
