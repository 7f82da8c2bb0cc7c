import Verif.Props.ControlsSimulation
/- C118: simulated data of models with linear functions instead of translog functions. -/
namespace Skill
open Matrix Spec

theorem lookup_mapSpec {A B : Type} (g : A → B) (l : List (String × A)) (f : String) : (l.map (fun fs => (fs.1, g fs.2))).lookup f = (l.lookup f).map g := by
  induction l with
  | nil => rfl
  | cons a l ih =>
    obtain ⟨k, v⟩ := a
    rw [List.map_cons, List.lookup_cons, List.lookup_cons, ih]
    cases f == k <;> rfl

theorem mem_of_lookupSpec {A : Type} {l : List (String × A)} {f : String} {v : A} (h : l.lookup f = some v) : (f, v) ∈ l := by
  induction l with
  | nil => cases h
  | cons a l ih =>
    obtain ⟨k, w⟩ := a
    rw [List.lookup_cons] at h
    cases hk : f == k with
    | true =>
      rw [hk] at h
      obtain rfl : f = k := by simpa using hk
      obtain rfl : w = v := by simpa using h
      exact List.mem_cons_self
    | false =>
      rw [hk] at h
      exact List.mem_cons_of_mem _ (ih h)

def linearSpec (s : FactorSpec ℝ) : FactorSpec ℝ := { s with transition := if s.transition = .named "translog" then .named "linear" else s.transition }

theorem translogValue_linear {m : ModelDict ℝ} (hg : GoodNames m) {val : Loc → ℝ} {f : String} {t : ℕ} (h : NoHigherOrderTerms m val f t) (x : String → ℝ) :
    translogValue (allFactors m) x (fun name => val ⟨.transition, t, f, name⟩) = linearValue (allFactors m) x (fun name => val ⟨.transition, t, f, name⟩) := by
  have := translog_linear hg h x
  rw [translog_eq, linear_eq] at this
  exact Except.ok.inj this

/-- **C118** (switch_translog_to_linear): simulate a dataset with the same random numbers for a model and for the model in which all translog functions are switched to linear ones. If the parameters of squares and interactions are zero, simulate_dataset
returns the same measurements, and the same latent factors. -/
theorem C118_simulation (root : NormalRoot) {m : ModelDict ℝ} {pm : Processed ℝ} (hpm : processModel m = .ok pm) {k : ℕ} (hm : SimulationModel m k) (custom : String → CustomFn) (nan : ℝ) {val : Loc → ℝ}
    (hzero : ∀ f spec, (f, spec) ∈ m.factors → spec.transition = .named "translog" → ∀ t, IsPeriod m (t + 1) → NoHigherOrderTerms m val f t) {policies : List Policy} (hv : SimulationValues custom m k val policies)
    {params params' : List (Loc × ℝ)} (hparams : HasParams m params val) (hparams' : HasParams (switchTranslogToLinear m) params' val) {nObs : Option Nat} {data : Option (LongData ℝ)} {n : ℕ} {cov : Nat → Covariates}
    (hi : Individuals m nObs data n cov) (hn : 0 < n) {draws : DatasetDraws} (hd : k ≠ 1 → ∀ i < n, draws.element i < k) :
    ∃ (x : Nat → Cell m → ℝ) (x' : Nat → Cell (switchTranslogToLinear m) → ℝ) (out out' : SimulatedDataset), simulateDataset root custom nan m params nObs data policies draws = .ok out ∧
      simulateDataset root custom nan (switchTranslogToLinear m) params' nObs data policies draws = .ok out' ∧ DatasetIs m val n x out ∧ DatasetIs (switchTranslogToLinear m) val n x' out' ∧
      out'.measurements.rows = out.measurements.rows ∧ (∀ i < n, ∀ c c', c'.1 = c.1 → x' i (.inl c') = x i (.inl c)) ∧ (∀ i < n, ∀ c c', c'.1 = c.1 → x' i (.inr c') = x i (.inr c)) := by
  obtain ⟨pm', hpm'⟩ : Accepted (switchTransition "translog" "linear" m) := accepted_switch ⟨pm, hpm⟩ (by simp [ValidTransition])
  have he := edit_switch "translog" "linear" m
  obtain ⟨hT', hupd⟩ := updateInfo_switch hpm hpm'
  have hper : ∀ t, IsPeriod (switchTransition "translog" "linear" m) t ↔ IsPeriod m t := fun t => by rw [isPeriod_iff hpm, isPeriod_iff hpm', hT']
  have hup : ∀ t v, IsUpdate (switchTransition "translog" "linear" m) t v ↔ IsUpdate m t v := fun t v => by rw [← (C01_update_info_exact hpm').2.1, ← (C01_update_info_exact hpm).2.1, hupd]
  refine edited_simulation root he hpm hpm' hT' hupd (fun t v f => ⟨he.measures t v f, (edit_unswitch "translog" "linear" m).measures t v f⟩) hm (he.simulationModel hper hup hm) custom nan (fun t v _ c h1 h2 => absurd h1 h2) hv
    ⟨hv.positive, hv.sum, fun t ht fs hfs => ?_, fun p hp h => ?_⟩ hparams hparams' hi (he.individuals hper hup hi) hn (fun i _ t ht s f hf => ?_) hd
  · obtain ⟨f, spec⟩ := fs
    obtain ⟨s, hs', rfl⟩ := mem_switchTransition.mp hfs
    rw [he.allFactors_eq]
    by_cases htr : s.transition = .named "translog"
    · rw [if_pos htr]
      exact ⟨rfl, fun h => by simp at h⟩
    · rw [if_neg htr]
      exact hv.usable t ((hper _).mp ht) (f, s) hs'
  · obtain ⟨h1, h2⟩ := hv.policies p hp ((hper _).mp h)
    exact ⟨(he.isLatent _).mpr h1, h2⟩
  · unfold factorNext
    obtain ⟨ha1, ha2, ha3⟩ := he.anchor_eq val
    rw [he.allFactors_eq, he.latents_eq, ha1, ha2, ha3]
    congr 2
    unfold transitionOf
    have : (switchTransition "translog" "linear" m).factors.lookup f = (m.factors.lookup f).map linearSpec := lookup_mapSpec linearSpec m.factors f
    rw [this]
    cases hl : m.factors.lookup f with
    | none => rfl
    | some spec =>
      by_cases htr : spec.transition = .named "translog"
      · simp only [Option.map_some, Option.getD_some, linearSpec, if_pos htr]
        rw [htr]
        exact (translogValue_linear hm.names (hzero f spec (mem_of_lookupSpec hl) htr t ht) _).symm
      · simp only [Option.map_some, Option.getD_some, linearSpec, if_neg htr]

def translogSpec (s : FactorSpec ℝ) : FactorSpec ℝ := { s with transition := if s.transition = .named "linear" then .named "translog" else s.transition }

/-- **C118** (switch_linear_to_translog): simulate a dataset with the same random numbers for a model and for the model in which all linear functions are switched to translog ones. If the parameters of squares and interactions in the new translog
functions are zero, simulate_dataset returns the same measurements, and the same latent factors. -/
theorem C118_simulation_back (root : NormalRoot) {m : ModelDict ℝ} {pm : Processed ℝ} (hpm : processModel m = .ok pm) {k : ℕ} (hm : SimulationModel m k) (custom : String → CustomFn) (nan : ℝ) {val : Loc → ℝ}
    (hzero : ∀ f spec, (f, spec) ∈ m.factors → spec.transition = .named "linear" → ∀ t, IsPeriod m (t + 1) → NoHigherOrderTerms m val f t) {policies : List Policy} (hv : SimulationValues custom m k val policies)
    {params params' : List (Loc × ℝ)} (hparams : HasParams m params val) (hparams' : HasParams (switchLinearToTranslog m) params' val) {nObs : Option Nat} {data : Option (LongData ℝ)} {n : ℕ} {cov : Nat → Covariates}
    (hi : Individuals m nObs data n cov) (hn : 0 < n) {draws : DatasetDraws} (hd : k ≠ 1 → ∀ i < n, draws.element i < k) :
    ∃ (x : Nat → Cell m → ℝ) (x' : Nat → Cell (switchLinearToTranslog m) → ℝ) (out out' : SimulatedDataset), simulateDataset root custom nan m params nObs data policies draws = .ok out ∧
      simulateDataset root custom nan (switchLinearToTranslog m) params' nObs data policies draws = .ok out' ∧ DatasetIs m val n x out ∧ DatasetIs (switchLinearToTranslog m) val n x' out' ∧
      out'.measurements.rows = out.measurements.rows ∧ (∀ i < n, ∀ c c', c'.1 = c.1 → x' i (.inl c') = x i (.inl c)) ∧ (∀ i < n, ∀ c c', c'.1 = c.1 → x' i (.inr c') = x i (.inr c)) := by
  obtain ⟨pm', hpm'⟩ : Accepted (switchTransition "linear" "translog" m) := accepted_switch ⟨pm, hpm⟩ (by simp [ValidTransition])
  have he := edit_switch "linear" "translog" m
  obtain ⟨hT', hupd⟩ := updateInfo_switch hpm hpm'
  have hper : ∀ t, IsPeriod (switchTransition "linear" "translog" m) t ↔ IsPeriod m t := fun t => by rw [isPeriod_iff hpm, isPeriod_iff hpm', hT']
  have hup : ∀ t v, IsUpdate (switchTransition "linear" "translog" m) t v ↔ IsUpdate m t v := fun t v => by rw [← (C01_update_info_exact hpm').2.1, ← (C01_update_info_exact hpm).2.1, hupd]
  refine edited_simulation root he hpm hpm' hT' hupd (fun t v f => ⟨he.measures t v f, (edit_unswitch "linear" "translog" m).measures t v f⟩) hm (he.simulationModel hper hup hm) custom nan (fun t v _ c h1 h2 => absurd h1 h2) hv
    ⟨hv.positive, hv.sum, fun t ht fs hfs => ?_, fun p hp h => ?_⟩ hparams hparams' hi (he.individuals hper hup hi) hn (fun i _ t ht s f hf => ?_) hd
  · obtain ⟨f, spec⟩ := fs
    obtain ⟨s, hs', rfl⟩ := mem_switchTransition.mp hfs
    rw [he.allFactors_eq]
    by_cases htr : s.transition = .named "linear"
    · rw [if_pos htr]
      exact ⟨rfl, fun h => by simp at h⟩
    · rw [if_neg htr]
      exact hv.usable t ((hper _).mp ht) (f, s) hs'
  · obtain ⟨h1, h2⟩ := hv.policies p hp ((hper _).mp h)
    exact ⟨(he.isLatent _).mpr h1, h2⟩
  · unfold factorNext
    obtain ⟨ha1, ha2, ha3⟩ := he.anchor_eq val
    rw [he.allFactors_eq, he.latents_eq, ha1, ha2, ha3]
    congr 2
    unfold transitionOf
    have : (switchTransition "linear" "translog" m).factors.lookup f = (m.factors.lookup f).map translogSpec := lookup_mapSpec translogSpec m.factors f
    rw [this]
    cases hl : m.factors.lookup f with
    | none => rfl
    | some spec =>
      by_cases htr : spec.transition = .named "linear"
      · simp only [Option.map_some, Option.getD_some, translogSpec, if_pos htr]
        rw [htr]
        exact translogValue_linear hm.names (hzero f spec (mem_of_lookupSpec hl) htr t ht) _
      · simp only [Option.map_some, Option.getD_some, translogSpec, if_neg htr]

end Skill
