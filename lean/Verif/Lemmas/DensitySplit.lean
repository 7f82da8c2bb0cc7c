import Verif.Props.ObservationalEquivalence
import Mathlib.MeasureTheory.Measure.WithDensity
/-
The density of data that consist of two independent parts.
-/
namespace Skill
open Matrix MeasureTheory ProbabilityTheory Spec

/-- The positions of two lists in a list with the same elements. -/
theorem exists_split {a b c : List (Nat × String)} (ha : a.Nodup) (hb : b.Nodup) (hc : c.Nodup) (h : ∀ x, x ∈ a ↔ x ∈ b ∨ x ∈ c) (hbc : ∀ x ∈ b, x ∉ c) :
    ∃ π : Fin b.length ⊕ Fin c.length ≃ Fin a.length, (∀ j, a.get (π (.inl j)) = b.get j) ∧ ∀ j, a.get (π (.inr j)) = c.get j := by
  classical
  have hpos : ∀ x ∈ a, ∃ j : Fin a.length, a.get j = x := fun x hx => List.mem_iff_get.mp hx
  have h1 : ∀ j : Fin b.length, ∃ i : Fin a.length, a.get i = b.get j := fun j => hpos _ ((h _).mpr (Or.inl (List.get_mem b j)))
  have h2 : ∀ j : Fin c.length, ∃ i : Fin a.length, a.get i = c.get j := fun j => hpos _ ((h _).mpr (Or.inr (List.get_mem c j)))
  choose p hp using h1
  choose q hq using h2
  have hbij : Function.Bijective (Sum.elim p q) := by
    constructor
    · rintro (i | i) (j | j) e
      · have := congrArg a.get e
        simp only [Sum.elim_inl, hp] at this
        exact congrArg _ (hb.injective_get this)
      · have := congrArg a.get e
        simp only [Sum.elim_inl, Sum.elim_inr, hp, hq] at this
        exact absurd (this ▸ List.get_mem c j) (hbc _ (List.get_mem b i))
      · have := congrArg a.get e
        simp only [Sum.elim_inl, Sum.elim_inr, hp, hq] at this
        exact absurd (this ▸ List.get_mem c i) (hbc _ (List.get_mem b j))
      · have := congrArg a.get e
        simp only [Sum.elim_inr, hq] at this
        exact congrArg _ (hc.injective_get this)
    · intro i
      rcases (h _).mp (List.get_mem a i) with hi | hi
      · obtain ⟨j, hj⟩ := List.mem_iff_get.mp hi
        exact ⟨.inl j, ha.injective_get (by rw [Sum.elim_inl, hp, hj])⟩
      · obtain ⟨j, hj⟩ := List.mem_iff_get.mp hi
        exact ⟨.inr j, ha.injective_get (by rw [Sum.elim_inr, hq, hj])⟩
  exact ⟨Equiv.ofBijective _ hbij, hp, hq⟩

/-- The data of an individual, split into two parts. -/
theorem exists_splitData {a b c : List (Nat × String)} (ha : a.Nodup) (hb : b.Nodup) (hc : c.Nodup) (h : ∀ x, x ∈ a ↔ x ∈ b ∨ x ∈ c) (hbc : ∀ x ∈ b, x ∉ c) (cov : Covariates) :
    ∃ T : (Fin a.length → ℝ) ≃ᵐ (Fin b.length → ℝ) × (Fin c.length → ℝ), Continuous T ∧ MeasurePreserving T (referenceMeasure a cov) ((referenceMeasure b cov).prod (referenceMeasure c cov)) ∧
      ∀ y, T (observedData a cov y) = (observedData b cov y, observedData c cov y) := by
  obtain ⟨π, hl, hr⟩ := exists_split ha hb hc h hbc
  have hsf : ∀ j, SigmaFinite (if cov.isObserved (a.get j).1 (a.get j).2 then volume else Measure.dirac (0 : ℝ)) := by
    intro j
    split <;> infer_instance
  let T1 : (Fin b.length ⊕ Fin c.length → ℝ) ≃ᵐ (Fin a.length → ℝ) := MeasurableEquiv.piCongrLeft (fun _ => ℝ) π
  let T2 : (Fin b.length ⊕ Fin c.length → ℝ) ≃ᵐ (Fin b.length → ℝ) × (Fin c.length → ℝ) := MeasurableEquiv.sumPiEquivProdPi (fun _ => ℝ)
  have h1 : MeasurePreserving T1 _ (referenceMeasure a cov) := measurePreserving_piCongrLeft (fun j : Fin a.length => if cov.isObserved (a.get j).1 (a.get j).2 then volume else Measure.dirac (0 : ℝ)) π
  have h2 := measurePreserving_sumPiEquivProdPi (fun j : Fin b.length ⊕ Fin c.length => if cov.isObserved (a.get (π j)).1 (a.get (π j)).2 then volume else Measure.dirac (0 : ℝ))
  simp only [hl, hr] at h2
  have hT1 : ∀ y j, T1.symm y j = y (π j) := by
    intro y j
    obtain ⟨z, rfl⟩ := T1.surjective y
    rw [MeasurableEquiv.symm_apply_apply]
    exact (Equiv.piCongrLeft_apply_apply (fun _ => ℝ) π z j).symm
  refine ⟨T1.symm.trans T2, ?_, (h1.symm T1).trans h2, ?_⟩
  · refine Continuous.prodMk (continuous_pi (fun j => ?_)) (continuous_pi (fun j => ?_))
    · show Continuous fun y => T1.symm y (.inl j)
      simp only [hT1]
      exact continuous_apply _
    · show Continuous fun y => T1.symm y (.inr j)
      simp only [hT1]
      exact continuous_apply _
  · intro y
    refine Prod.ext (funext fun j => ?_) (funext fun j => ?_)
    · show T1.symm (observedData a cov y) (.inl j) = _
      rw [hT1]
      unfold observedData
      rw [hl]
    · show T1.symm (observedData a cov y) (.inr j) = _
      rw [hT1]
      unfold observedData
      rw [hr]

/-- The density of data that consist of two independent parts is the product of the densities. -/
theorem density_split {Ω : Type} [MeasurableSpace Ω] {P : Measure Ω} [IsProbabilityMeasure P] {a b c : List (Nat × String)} (ha : a.Nodup) (hb : b.Nodup) (hc : c.Nodup) (h : ∀ x, x ∈ a ↔ x ∈ b ∨ x ∈ c) (hbc : ∀ x ∈ b, x ∉ c)
    (cov : Covariates) {Y : Ω → Nat → String → ℝ} (hYa : Measurable (fun ω => observedData a cov (Y ω))) (hYb : Measurable (fun ω => observedData b cov (Y ω))) (hYc : Measurable (fun ω => observedData c cov (Y ω)))
    (hind : IndepFun (fun ω => observedData b cov (Y ω)) (fun ω => observedData c cov (Y ω)) P)
    {d : (Fin a.length → ℝ) → ℝ} {d1 : (Fin b.length → ℝ) → ℝ} {d2 : (Fin c.length → ℝ) → ℝ} (hd : Continuous d) (hd1 : Continuous d1) (hd2 : Continuous d2)
    (hpos : ∀ y, 0 < d y) (hpos1 : ∀ y, 0 < d1 y) (hpos2 : ∀ y, 0 < d2 y) (hl : P.map (fun ω => observedData a cov (Y ω)) = (referenceMeasure a cov).withDensity (fun y => ENNReal.ofReal (d y)))
    (hl1 : P.map (fun ω => observedData b cov (Y ω)) = (referenceMeasure b cov).withDensity (fun y => ENNReal.ofReal (d1 y)))
    (hl2 : P.map (fun ω => observedData c cov (Y ω)) = (referenceMeasure c cov).withDensity (fun y => ENNReal.ofReal (d2 y))) (y : Nat → String → ℝ) :
    d (observedData a cov y) = d1 (observedData b cov y) * d2 (observedData c cov y) := by
  obtain ⟨T, hTc, hmp, hTo⟩ := exists_splitData ha hb hc h hbc cov
  have hsfa := sigmaFinite_reference a cov
  have hsfb := sigmaFinite_reference b cov
  have hsfc := sigmaFinite_reference c cov
  have hmd : Measurable (fun y => ENNReal.ofReal (d y)) := ENNReal.measurable_ofReal.comp hd.measurable
  have hmd1 : Measurable (fun y => ENNReal.ofReal (d1 y)) := ENNReal.measurable_ofReal.comp hd1.measurable
  have hmd2 : Measurable (fun y => ENNReal.ofReal (d2 y)) := ENNReal.measurable_ofReal.comp hd2.measurable
  have hdd : Continuous (fun z : (Fin b.length → ℝ) × (Fin c.length → ℝ) => d1 z.1 * d2 z.2) := (hd1.comp continuous_fst).mul (hd2.comp continuous_snd)
  have hmdd : Measurable (fun z : (Fin b.length → ℝ) × (Fin c.length → ℝ) => ENNReal.ofReal (d1 z.1 * d2 z.2)) := ENNReal.measurable_ofReal.comp hdd.measurable
  have hjoint : P.map (fun ω => (observedData b cov (Y ω), observedData c cov (Y ω))) = ((referenceMeasure b cov).prod (referenceMeasure c cov)).withDensity (fun z => ENNReal.ofReal (d1 z.1 * d2 z.2)) := by
    rw [(indepFun_iff_map_prod_eq_prod_map_map hYb.aemeasurable hYc.aemeasurable).mp hind, hl1, hl2, prod_withDensity hmd1 hmd2]
    congr 1
    funext z
    rw [ENNReal.ofReal_mul (hpos1 _).le]
  have heq : (referenceMeasure a cov).withDensity (fun y => ENNReal.ofReal (d y)) = (referenceMeasure a cov).withDensity (fun y => ENNReal.ofReal (d1 (T y).1 * d2 (T y).2)) := by
    rw [← hl]
    refine Measure.ext (fun A hA => ?_)
    have hB : MeasurableSet (T.symm ⁻¹' A) := T.symm.measurable hA
    have hpre : T ⁻¹' (T.symm ⁻¹' A) = A := by
      ext y
      simp
    have h1 : (fun ω => observedData a cov (Y ω)) ⁻¹' A = (fun ω => (observedData b cov (Y ω), observedData c cov (Y ω))) ⁻¹' (T.symm ⁻¹' A) := by
      ext ω
      simp only [Set.mem_preimage, ← hTo, MeasurableEquiv.symm_apply_apply]
    rw [withDensity_apply _ hA, Measure.map_apply hYa hA, h1, ← Measure.map_apply (hYb.prodMk hYc) hB, hjoint, withDensity_apply _ hB, ← hmp.setLIntegral_comp_preimage hB hmdd, hpre]
  have hae := (withDensity_eq_iff_of_sigmaFinite hmd.aemeasurable (hmdd.comp T.measurable).aemeasurable).mp heq
  have hae' : d =ᵐ[referenceMeasure a cov] fun y => d1 (T y).1 * d2 (T y).2 := by
    filter_upwards [hae] with y hy
    have := congrArg ENNReal.toReal hy
    rwa [ENNReal.toReal_ofReal (hpos y).le, Function.comp_apply, ENNReal.toReal_ofReal (mul_pos (hpos1 _) (hpos2 _)).le] at this
  rw [eq_of_ae (fun j => cov.isObserved (a.get j).1 (a.get j).2) hd (hdd.comp hTc) hae' (y := observedData a cov y), Function.comp_apply, hTo]
  intro j hj
  unfold observedData
  rw [hj]
  simp

/-- If nothing is observed then the data are zero. -/
theorem reference_unobserved {c : List (Nat × String)} {cov : Covariates} (h : ∀ x ∈ c, cov.isObserved x.1 x.2 = false) : referenceMeasure c cov = Measure.dirac 0 := by
  unfold referenceMeasure
  have : (fun k : Fin c.length => if cov.isObserved (c.get k).1 (c.get k).2 = true then (volume : Measure ℝ) else Measure.dirac 0) = fun _ => Measure.dirac 0 := by
    funext k
    rw [h _ (List.get_mem c k)]
    simp
  rw [this]
  refine (Measure.pi_eq (fun s hs => ?_))
  rw [Measure.dirac_apply' _ (MeasurableSet.univ_pi hs)]
  simp only [fun i => Measure.dirac_apply' (0 : ℝ) (hs i)]
  by_cases h0 : ∀ i, (0 : ℝ) ∈ s i
  · rw [Set.indicator_of_mem (by simpa using h0), Finset.prod_congr rfl (fun i _ => Set.indicator_of_mem (h0 i) 1)]
    simp
  · push Not at h0
    obtain ⟨i, hi⟩ := h0
    rw [Set.indicator_of_notMem (by intro hm; exact hi (hm i (Set.mem_univ _))), Finset.prod_eq_zero (Finset.mem_univ i) (Set.indicator_of_notMem hi 1)]

theorem observed_unobserved {c : List (Nat × String)} {cov : Covariates} (h : ∀ x ∈ c, cov.isObserved x.1 x.2 = false) (y : Nat → String → ℝ) : observedData c cov y = 0 := by
  funext k
  unfold observedData
  rw [h _ (List.get_mem c k)]
  simp

/-- The density of the data if one part is missing. -/
theorem density_missing {Ω : Type} [MeasurableSpace Ω] {P : Measure Ω} [IsProbabilityMeasure P] {a b : List (Nat × String)} (ha : a.Nodup) (hb : b.Nodup) (h : ∀ x ∈ b, x ∈ a)
    (cov : Covariates) (hmiss : ∀ x ∈ a, x ∉ b → cov.isObserved x.1 x.2 = false) {Y : Ω → Nat → String → ℝ} (hYa : Measurable (fun ω => observedData a cov (Y ω))) (hYb : Measurable (fun ω => observedData b cov (Y ω)))
    {d : (Fin a.length → ℝ) → ℝ} {d1 : (Fin b.length → ℝ) → ℝ} (hd : Continuous d) (hd1 : Continuous d1)
    (hpos : ∀ y, 0 < d y) (hpos1 : ∀ y, 0 < d1 y) (hl : P.map (fun ω => observedData a cov (Y ω)) = (referenceMeasure a cov).withDensity (fun y => ENNReal.ofReal (d y)))
    (hl1 : P.map (fun ω => observedData b cov (Y ω)) = (referenceMeasure b cov).withDensity (fun y => ENNReal.ofReal (d1 y))) (y : Nat → String → ℝ) :
    d (observedData a cov y) = d1 (observedData b cov y) := by
  classical
  let c := a.filter (fun x => decide (x ∉ b))
  have hmem : ∀ x, x ∈ c ↔ x ∈ a ∧ x ∉ b := by
    intro x
    simp [c, List.mem_filter]
  have hno : ∀ x ∈ c, cov.isObserved x.1 x.2 = false := fun x hx => hmiss x ((hmem x).mp hx).1 ((hmem x).mp hx).2
  have hzero : (fun ω => observedData c cov (Y ω)) = fun _ => 0 := funext fun ω => observed_unobserved hno _
  have := density_split ha hb (ha.filter _ : c.Nodup) (fun x => by rw [hmem]; by_cases hx : x ∈ b <;> simp [hx]; exact h x hx) (fun x hx hc => ((hmem x).mp hc).2 hx) cov hYa hYb (by rw [hzero]; exact measurable_const)
    (by rw [hzero]; exact indepFun_const_right _ _) hd hd1 (continuous_const (y := (1 : ℝ))) hpos hpos1 (fun _ => one_pos) hl hl1 (by
      rw [hzero, Measure.map_const, measure_univ, one_smul, reference_unobserved hno]
      simp) y
  rw [this, mul_one]
end Skill
