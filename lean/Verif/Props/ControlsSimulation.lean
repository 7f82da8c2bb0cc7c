import Verif.Props.EditsSimulation
/- C117: simulated data of models with fewer controls. -/
namespace Skill
open Matrix Spec

section
variable {m m' : ModelDict ℝ} (he : EditOf m m') (hper : ∀ t, IsPeriod m' t ↔ IsPeriod m t) (hup : ∀ t v, IsUpdate m' t v ↔ IsUpdate m t v)
include he hper hup

theorem EditOf.simulationModel {k : ℕ} (hm : SimulationModel m k) : SimulationModel m' k where
  names := he.goodNames hm.names
  anchoring := ⟨he.cleanAnchoring hm.anchoring.1, he.sameOrder hm.anchoring.2.1, he.noNameClash hm.anchoring.2.2⟩
  safe f hf := hm.safe f ((he.isLatent f).mp hf)
  columns f h := hm.columns f (h.imp (he.isLatent f).mp (fun ⟨t, ht⟩ => ⟨t, (hup t f).mp ht⟩))
  periods := (hper 1).mpr hm.periods
  updates t ht := by
    obtain ⟨v, hv⟩ := hm.updates t ((hper t).mp ht)
    exact ⟨v, (hup t v).mpr hv⟩
  mixture := by
    unfold HasNMixtures
    rw [he.options]
    exact hm.mixture
  elements := hm.elements

theorem EditOf.individuals {nObs : Option Nat} {data : Option (LongData ℝ)} {n : ℕ} {cov : Nat → Covariates} (hi : Individuals m nObs data n cov) : Individuals m' nObs data n cov := by
  cases hi with
  | @ofData _ df ids pers _ h1 h2 h3 h4 h5 h6 =>
    refine .ofData h1 h2 h3 h4 ⟨h5.keys, fun f o ha => h5.outcomes f o ((he.anchoredIn f o).mp ha), fun t ht c hc => ?_, fun t v h => ?_, fun t ht f hf => ?_⟩ (fun i hil t ht => ?_)
    · simp only [he.hasVariable, he.hasValue]
      exact h5.controls t ((hper t).mp ht) c ((he.controls.cons_cons "constant").subset hc)
    · rw [he.hasVariable]
      exact h5.measurements t v ((hup t v).mp h)
    · simp only [he.hasVariable, he.hasValue]
      rw [he.observed] at hf
      exact h5.observed t ((hper t).mp ht) f hf
    · obtain ⟨r, hr, hr1, hr2⟩ := h6 i hil t ((hper t).mp ht)
      refine ⟨r, hr, fun c hc => ?_, fun f hf => ?_⟩
      · rw [he.valueIs]
        exact hr1 c ((he.controls.cons_cons "constant").subset hc)
      · rw [he.valueIs]
        rw [he.observed] at hf
        exact hr2 f hf
  | ofNumber h1 h2 h3 =>
    refine .ofNumber ?_ (by rw [he.observed]; exact h2) h3
    have := he.controls
    rw [h1] at this
    exact List.sublist_nil.mp this

end

/-- **C117**: simulate a dataset with the same random numbers for a model and for the model without some controls (as returned by remove_controls). If the parameters of the removed controls are zero, simulate_dataset returns the same
dataset: the same latent factors, anchored latent factors and measurements (`x`) for all individuals and periods. -/
theorem C117_simulation (root : NormalRoot) {m m' : ModelDict ℝ} {pm : Processed ℝ} (hpm : processModel m = .ok pm) {cs : List String} (hm' : removeControls cs m = .ok m') {k : ℕ} (hm : SimulationModel m k) (custom : String → CustomFn) (nan : ℝ)
    {val : Loc → ℝ} (hzero : ∀ t v, IsUpdate m t v → ∀ c ∈ cs, val ⟨.controls, t, v, c⟩ = 0) {policies : List Policy} (hv : SimulationValues custom m k val policies) {params params' : List (Loc × ℝ)} (hparams : HasParams m params val)
    (hparams' : HasParams m' params' val) {nObs : Option Nat} {data : Option (LongData ℝ)} {n : ℕ} {cov : Nat → Covariates} (hi : Individuals m nObs data n cov) (hn : 0 < n) {draws : DatasetDraws} (hd : k ≠ 1 → ∀ i < n, draws.element i < k) :
    ∃ (x : Nat → Cell m → ℝ) (out out' : SimulatedDataset), simulateDataset root custom nan m params nObs data policies draws = .ok out ∧ simulateDataset root custom nan m' params' nObs data policies draws = .ok out' ∧
      DatasetIs m val n x out ∧ DatasetIs m val n x out' ∧ out'.measurements.rows = out.measurements.rows := by
  obtain ⟨pm', hpm'⟩ := accepted_removeControls ⟨pm, hpm⟩ hm'
  have he := edit_removeControls hm'
  obtain ⟨hT', hupd⟩ := updateInfo_removeControls hm' hpm hpm'
  have hper : ∀ t, IsPeriod m' t ↔ IsPeriod m t := fun t => by rw [isPeriod_iff hpm, isPeriod_iff hpm', hT']
  have hup : ∀ t v, IsUpdate m' t v ↔ IsUpdate m t v := fun t v => by rw [← (C01_update_info_exact hpm').2.1, ← (C01_update_info_exact hpm).2.1, hupd]
  obtain ⟨c0, hc0, hm0⟩ := removeControls_ok hm'
  have hmem : ∀ c, c ∈ m'.controls.getD [] ↔ c ∈ m.controls.getD [] ∧ c ∉ cs := fun c => by
    rw [hm0, hc0]
    show c ∈ (if removeFromList c0 cs = [] then none else some (removeFromList c0 cs)).getD [] ↔ _
    rw [controls_getD_reduced, mem_removeFromList]
    rfl
  have hM := he.simulationModel hper hup hm
  have hI := he.individuals hper hup hi
  subst hm0
  obtain ⟨x, x', out, out', h1, h2, h3, h4, h5, h6, h7⟩ := edited_simulation root he hpm hpm' hT' hupd (fun _ _ _ => Iff.rfl) hm hM custom nan (fun t v h c hc hc' => hzero t v h c (by
    by_contra hcs
    exact hc' ((hmem c).mpr ⟨hc, hcs⟩))) hv ⟨hv.positive, hv.sum, hv.usable, hv.policies⟩ hparams hparams' hi hI hn (fun _ _ _ _ _ _ _ => rfl) hd
  refine ⟨x, out, out', h1, h2, h3, ?_, h5⟩
  refine ⟨h4.size, h4.columns, fun N hN i hil t ht => ?_, fun N hN i hil t ht => ?_, fun N hN i hil t ht => ?_, h4.ranges⟩
  · obtain ⟨cells, a1, a2, a3, a4⟩ := h4.unanchored N hN i hil t ht
    exact ⟨cells, a1, a2, a3, fun c hc => (a4 c hc).trans (h6 i hil c c rfl)⟩
  · obtain ⟨cells, a1, a2, a3, a4⟩ := h4.anchored N hN i hil t ht
    exact ⟨cells, a1, a2, a3, fun c hc => (a4 c hc).trans (congrArg (anchoredValue m val t c.1.2) (h6 i hil c c rfl))⟩
  · obtain ⟨r, a1, a2, a3, a4, a5⟩ := h4.measurements N hN i hil t ht
    exact ⟨r, a1, a2, a3, fun c hc => (a4 c hc).trans (congrArg some (h7 i hil c c rfl)), a5⟩

end Skill
