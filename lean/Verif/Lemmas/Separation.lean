import Verif.Spec.Separation
import Verif.Lemmas.DensitySplit
import Verif.Lemmas.Utilities
import Verif.Props.Identification
import Verif.Props.OwnData
/-
Models without some of the factors.
-/
namespace Skill
open Matrix MeasureTheory ProbabilityTheory Spec

/-- `m'` is the model `m` without the factors in `fs`. -/
structure Without (m : ModelDict ℝ) (fs : List String) (m' : ModelDict ℝ) : Prop where
  latents : latents m' = (latents m).filter (fun f => decide (f ∉ fs))
  measures : ∀ t v f, Measures m' t v f ↔ Measures m t v f ∧ f ∉ fs
  transitions : ∀ f name, HasTransition m' f name ↔ HasTransition m f name ∧ f ∉ fs
  specs : ∀ f spec, (f, spec) ∈ m'.factors → ∃ spec', (f, spec') ∈ m.factors ∧ spec.transition = spec'.transition
  controls : m'.controls = m.controls
  observed : m'.observedFactors = m.observedFactors
  anchoring : m.anchoring = none → m'.anchoring = none
  options : m'.estimationOptions = m.estimationOptions
  periods : ∀ t, IsPeriod m' t → IsPeriod m t

theorem without_removeFactors {m m' : ModelDict ℝ} {fs : List String} (h : removeFactors fs m = .ok m') : Without m fs m' := by
  have hs := smaller_removeFactors h
  obtain ⟨a, n, h1, _, hn, rfl⟩ := removeFactors_ok.mp h
  have hfac : ∀ f spec, (f, spec) ∈ (reduceNPeriods (dropFactors fs m a) n).factors ↔ ∃ s, (f, s) ∈ m.factors ∧ f ∉ fs ∧ spec = reduceFactorPeriods n s := by
    intro f spec
    rw [mem_reduceNPeriods]
    constructor
    · rintro ⟨s, hs, rfl⟩
      exact ⟨s, (mem_removeFromDict.mp hs).1, (mem_removeFromDict.mp hs).2, rfl⟩
    · rintro ⟨s, hs, hf, rfl⟩
      exact ⟨s, mem_removeFromDict.mpr ⟨hs, hf⟩, rfl⟩
  refine ⟨?_, ?_, ?_, ?_, rfl, rfl, ?_, rfl, hs.periods⟩
  · show (List.map _ (removeFromDict m.factors fs)).map Prod.fst = _
    rw [List.map_map]
    show (removeFromDict m.factors fs).map Prod.fst = (m.factors.map Prod.fst).filter _
    unfold removeFromDict
    rw [List.filter_map]
    rfl
  · intro t v f
    constructor
    · rintro ⟨spec, hsp, ms, hms, hv⟩
      obtain ⟨s, hs, hf, rfl⟩ := (hfac _ _).mp hsp
      rw [reduceFactor_measurements, getElem?_take_some] at hms
      exact ⟨⟨s, hs, ms, hms.2, hv⟩, hf⟩
    · rintro ⟨⟨s, hs, ms, hms, hv⟩, hf⟩
      refine ⟨_, (hfac _ _).mpr ⟨s, hs, hf, rfl⟩, ms, ?_, hv⟩
      rw [reduceFactor_measurements, getElem?_take_some]
      exact ⟨lt_of_lt_of_le (List.getElem?_eq_some_iff.mp hms).1 (hn.2 f s (mem_removeFromDict.mpr ⟨hs, hf⟩)), hms⟩
  · intro f name
    constructor
    · rintro ⟨spec, hsp, ht⟩
      obtain ⟨s, hs, hf, rfl⟩ := (hfac _ _).mp hsp
      exact ⟨⟨s, hs, ht⟩, hf⟩
    · rintro ⟨⟨s, hs, ht⟩, hf⟩
      exact ⟨_, (hfac _ _).mpr ⟨s, hs, hf, rfl⟩, ht⟩
  · intro f spec hsp
    obtain ⟨s, hs, hf, rfl⟩ := (hfac _ _).mp hsp
    exact ⟨s, hs, rfl⟩
  · intro hna
    rw [hna] at h1
    exact (Except.ok.inj h1).symm

namespace Without
variable {m m' : ModelDict ℝ} {fs : List String}

theorem isLatent (h : Without m fs m') (f : String) : IsLatent m' f ↔ IsLatent m f ∧ f ∉ fs := by
  rw [← mem_latents_iff, ← mem_latents_iff, h.latents, List.mem_filter]
  simp

theorem isUpdate (h : Without m fs m') (hna : m.anchoring = none) (t : ℕ) (v : String) : IsUpdate m' t v ↔ ∃ f, Measures m t v f ∧ f ∉ fs := by
  constructor
  · rintro (⟨f, hf⟩ | ⟨_, f, o, ⟨a, ha, _⟩, _⟩)
    · exact ⟨f, (h.measures t v f).mp hf⟩
    · rw [h.anchoring hna] at ha
      cases ha
  · rintro ⟨f, hf⟩
    exact Or.inl ⟨f, (h.measures t v f).mpr hf⟩

theorem goodNames (h : Without m fs m') (hna : m.anchoring = none) (hg : GoodNames m) : GoodNames m' := by
  have hsub : (Spec.latents m').Sublist (Spec.latents m) := h.latents ▸ List.filter_sublist
  have hall : (allFactors m').Sublist (allFactors m) := by
    unfold allFactors
    rw [h.observed]
    exact hsub.append (List.Sublist.refl _)
  refine ⟨⟨hg.keys.factors.sublist hsub, ?_⟩, hg.distinct.sublist hall, ?_, fun f hf => hg.chars f (hall.subset hf), fun f hf => ?_, ?_⟩
  · intro a os ha
    rw [h.anchoring hna] at ha
    cases ha
  · rw [h.controls]
    exact hg.controls
  · obtain ⟨h1, h2, h3, h4⟩ := hg.reserved f (hall.subset hf)
    exact ⟨h1, h2, h3, fun g hg' => h4 g (hall.subset hg')⟩
  · intro f spec fn ps hs he
    obtain ⟨s, hs', ht⟩ := h.specs f spec hs
    exact hg.registered f s fn ps hs' (ht ▸ he)

theorem properValues (h : Without m fs m') (hna : m.anchoring = none) {k : ℕ} {val : Loc → ℝ} (hv : ProperValues m k val) : ProperValues m' k val := by
  refine ⟨hv.positive, hv.sum, fun t v hu => ?_, fun t f _ => ?_⟩
  · obtain ⟨f, hf, _⟩ := (h.isUpdate hna t v).mp hu
    exact hv.sds t v (Or.inl ⟨f, hf⟩)
  · have : outcome m' f = none := by simp [outcome, h.anchoring hna]
    simp [anchorScale, this]
end Without

theorem no_anchors {m : ModelDict ℝ} (hna : m.anchoring = none) (v f : String) : ¬Anchors m v f := by
  rintro ⟨o, ⟨a, ha, _⟩, _⟩
  rw [hna] at ha
  cases ha

/-- The transition without anchoring. -/
theorem nextState_none {m : ModelDict ℝ} (hna : m.anchoring = none) (val : Loc → ℝ) (cov : Covariates) (t : ℕ) (s : String → ℝ) (f : String) :
    nextState m val cov t s f = nextAnchored m val t (fun g => if g ∈ latents m then s g else cov.factor t g) f := by
  have hout : ∀ f, outcome m f = none := fun f => by simp [outcome, hna]
  have hscale : ∀ t f, anchorScale m val t f = 1 := fun t f => by simp [anchorScale, hout]
  have hconst : ∀ t f, anchorConstant m val t f = 0 := fun t f => by simp [anchorConstant, hout]
  simp only [nextState, anchoredValue, hscale, hconst, zero_add, one_mul, sub_zero, div_one]

theorem idxOf_filter_le {l : List String} (p : String → Bool) {f g : String} (hf : p f = true) (hg : p g = true) (hfl : f ∈ l) : (l.filter p).idxOf g ≤ (l.filter p).idxOf f ↔ l.idxOf g ≤ l.idxOf f := by
  induction l with
  | nil => cases hfl
  | cons a l ih =>
    by_cases ha : p a = true
    · rw [List.filter_cons_of_pos ha]
      by_cases h1 : a = g
      · subst h1
        simp
      · by_cases h2 : a = f
        · subst h2
          rw [List.idxOf_cons_ne _ h1, List.idxOf_cons_ne _ h1, List.idxOf_cons_self, List.idxOf_cons_self]
          omega
        · rw [List.idxOf_cons_ne _ h1, List.idxOf_cons_ne _ h1, List.idxOf_cons_ne _ h2, List.idxOf_cons_ne _ h2]
          have := ih ((List.mem_cons.mp hfl).resolve_left (Ne.symm h2))
          omega
    · rw [List.filter_cons_of_neg ha]
      have h1 : a ≠ g := fun e => ha (e ▸ hg)
      have h2 : a ≠ f := fun e => ha (e ▸ hf)
      rw [List.idxOf_cons_ne _ h1, List.idxOf_cons_ne _ h2, ih ((List.mem_cons.mp hfl).resolve_left (Ne.symm h2))]
      omega

theorem sum_filter_zero {l : List String} (p : String → Bool) (w : String → ℝ) (h : ∀ x ∈ l, p x = false → w x = 0) : ((l.filter p).map w).sum = (l.map w).sum := by
  induction l with
  | nil => rfl
  | cons a l ih =>
    have ih := ih (fun x hx => h x (List.mem_cons_of_mem _ hx))
    cases ha : p a with
    | true => rw [List.filter_cons_of_pos ha, List.map_cons, List.map_cons, List.sum_cons, List.sum_cons, ih]
    | false => rw [List.filter_cons_of_neg (by simp [ha]), ih, List.map_cons, List.sum_cons, h a List.mem_cons_self ha, zero_add]

section
variable {m m' : ModelDict ℝ} {fs : List String} {k : ℕ} {val : Loc → ℝ}

theorem start_without (h : Without m fs m') (hna : m.anchoring = none) (hg : GoodNames m) (hinf : NoInfluence m k fs val) {e : ℕ} (he : e < k) (z : Noise → ℝ) {f : String} (hf : IsLatent m f) (hfs : f ∉ fs) :
    startState m' val e z f = startState m val e z f := by
  have hg' := h.goodNames hna hg
  rw [start_sum hg, start_sum hg', h.latents]
  congr 1
  rw [← sum_filter_zero (fun f => decide (f ∉ fs)) (l := latents m)]
  · refine congrArg List.sum (List.map_congr_left (fun g hgm => ?_))
    have hg2 := (List.mem_filter.mp hgm).2
    congr 1
    unfold cholEntry
    rw [h.latents]
    simp only [idxOf_filter_le (fun f => decide (f ∉ fs)) (by simpa using hfs) hg2 ((mem_latents_iff m f).mpr hf)]
  · intro g hgm hgf
    rw [hinf.initial e he f g hf hfs ((mem_latents_iff m g).mp hgm) (by simpa using hgf), zero_mul]

theorem states_without (h : Without m fs m') (hm : LinearModel m k) (hna : m.anchoring = none) (hg : GoodNames m) (hinf : NoInfluence m k fs val) (cov : Covariates) {e : ℕ} (he : e < k) (z : Noise → ℝ) {t : ℕ} (ht : IsPeriod m t)
    {f : String} (hf : IsLatent m f) (hfs : f ∉ fs) : latentStates m' val cov e z t f = latentStates m val cov e z t f := by
  have hg' := h.goodNames hna hg
  induction t generalizing f with
  | zero => exact start_without h hna hg hinf he z hf hfs
  | succ t ih =>
    have ht' : IsPeriod m t := by
      obtain ⟨n, hn, hlt⟩ := ht
      exact ⟨n, hn, by omega⟩
    rw [latentStates, latentStates]
    dsimp only
    rw [nextState_none hna, nextState_none (h.anchoring hna)]
    congr 1
    unfold nextAnchored
    have hmem' : ∀ g, g ∈ latents m' ↔ g ∈ latents m ∧ g ∉ fs := fun g => by rw [mem_latents_iff, mem_latents_iff, h.isLatent]
    have hstate : ∀ g, g ∈ latents m' → latentStates m' val cov e z t g = latentStates m val cov e z t g := fun g hgm => ih ht' ((mem_latents_iff m g).mp ((hmem' g).mp hgm).1) ((hmem' g).mp hgm).2
    by_cases hc : HasTransition m f "constant"
    · rw [if_pos hc, if_pos ((h.transitions f "constant").mpr ⟨hc, hfs⟩)]
      dsimp only
      rw [if_pos ((mem_latents_iff m f).mpr hf), if_pos ((hmem' f).mpr ⟨(mem_latents_iff m f).mpr hf, hfs⟩)]
      exact ih ht' hf hfs
    · rw [if_neg hc, if_neg (fun hc' => hc ((h.transitions f "constant").mp hc').1)]
      unfold linearValue linearTerms
      congr 1
      have hlin : HasTransition m f "linear" := by
        obtain ⟨spec, hs⟩ := hf
        rcases hm.transitions f spec hs with h1 | h1
        · exact ⟨spec, hs, h1⟩
        · exact absurd ⟨spec, hs, h1⟩ hc
      have hall : ∀ m : ModelDict ℝ, allFactors m = latents m ++ m.observedFactors.getD [] := fun _ => rfl
      have hdis : ∀ g ∈ m.observedFactors.getD [], g ∉ latents m := fun g hgo hgl => by
        have := hg.distinct
        rw [hall] at this
        exact List.disjoint_of_nodup_append this hgl hgo
      rw [hall, hall, h.observed, List.map_append, List.map_append, List.sum_append, List.sum_append, h.latents]
      congr 1
      · rw [← sum_filter_zero (fun f => decide (f ∉ fs)) (l := latents m)]
        · refine congrArg List.sum (List.map_congr_left (fun g hgm => ?_))
          obtain ⟨hg1, hg2⟩ := List.mem_filter.mp hgm
          have hgm' : g ∈ latents m' := by rw [h.latents]; exact hgm
          dsimp only
          rw [if_pos hgm, if_pos hg1, hstate g hgm']
        · intro g hgm hgf
          dsimp only
          rw [hinf.transition t f g ht hlin hfs ((mem_latents_iff m g).mp hgm) (by simpa using hgf), zero_mul]
      · refine congrArg List.sum (List.map_congr_left (fun g hgm => ?_))
        dsimp only
        rw [if_neg (hdis g hgm), if_neg (fun h' => hdis g hgm (List.mem_filter.mp h').1)]

theorem measurement_without (h : Without m fs m') (hm : LinearModel m k) (hna : m.anchoring = none) (hg : GoodNames m) (hinf : NoInfluence m k fs val) (cov : Covariates) {e : ℕ} (he : e < k) (z : Noise → ℝ) {t : ℕ} {v : String}
    (hu : IsUpdate m' t v) : measurementValue m' val cov e z t v = measurementValue m val cov e z t v := by
  obtain ⟨f0, hf0, hfs0⟩ := (h.isUpdate hna t v).mp hu
  have ht : IsPeriod m t := update_period hm t v (Or.inl ⟨f0, hf0⟩)
  unfold measurementValue
  rw [h.controls]
  congr 2
  rw [h.latents, ← sum_filter_zero (fun f => decide (f ∉ fs)) (l := latents m)]
  · refine congrArg List.sum (List.map_congr_left (fun g hgm => ?_))
    obtain ⟨hg1, hg2⟩ := List.mem_filter.mp hgm
    have hgfs : g ∉ fs := by simpa using hg2
    have hiff : (Measures m' t v g ∨ Anchors m' v g) ↔ (Measures m t v g ∨ Anchors m v g) := by
      rw [h.measures]
      simp [no_anchors hna, no_anchors (h.anchoring hna), hgfs]
    rw [states_without h hm hna hg hinf cov he z ht ((mem_latents_iff m g).mp hg1) hgfs]
    by_cases hc : Measures m t v g ∨ Anchors m v g
    · rw [if_pos hc, if_pos (hiff.mpr hc)]
    · rw [if_neg hc, if_neg (fun h' => hc (hiff.mp h'))]
  · intro g hgm hgf
    split_ifs with hc
    · rw [hinf.loadings t v f0 g hf0 hfs0 (hc.resolve_right (no_anchors hna v g)) (by simpa using hgf), zero_mul]
    · rfl

/-- The random numbers that matter for the data. -/
def noiseIn (m : ModelDict ℝ) : Set Noise := {j | match j with
  | .start f => IsLatent m f
  | .shock _ f => IsLatent m f
  | .error t v => IsUpdate m t v}

theorem states_noise (hm : LinearModel m k) (hna : m.anchoring = none) (hg : GoodNames m) (cov : Covariates) (e : ℕ) {z z' : Noise → ℝ} (hz : ∀ j ∈ noiseIn m, z j = z' j) (t : ℕ) {f : String} (hf : IsLatent m f) :
    latentStates m val cov e z t f = latentStates m val cov e z' t f := by
  induction t generalizing f with
  | zero =>
    show startState m val e z f = startState m val e z' f
    rw [start_sum hg, start_sum hg]
    congr 2
    exact List.map_congr_left (fun g hgm => by rw [hz (.start g) ((mem_latents_iff m g).mp hgm)])
  | succ t ih =>
    rw [latentStates, latentStates]
    dsimp only
    rw [nextState_none hna, nextState_none hna, hz (.shock t f) hf]
    have : (fun g => if g ∈ latents m then latentStates m val cov e z t g else cov.factor t g) = fun g => if g ∈ latents m then latentStates m val cov e z' t g else cov.factor t g := by
      funext g
      split_ifs with hgm
      · exact ih ((mem_latents_iff m g).mp hgm)
      · rfl
    rw [this]

theorem measurement_noise (hm : LinearModel m k) (hna : m.anchoring = none) (hg : GoodNames m) (cov : Covariates) (e : ℕ) {z z' : Noise → ℝ} (hz : ∀ j ∈ noiseIn m, z j = z' j) {t : ℕ} {v : String} (hu : IsUpdate m t v) :
    measurementValue m val cov e z t v = measurementValue m val cov e z' t v := by
  unfold measurementValue
  rw [hz (.error t v) hu]
  congr 3
  exact List.map_congr_left (fun g hgm => by rw [states_noise hm hna hg cov e hz t ((mem_latents_iff m g).mp hgm)])
end
end Skill
