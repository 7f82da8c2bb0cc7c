import Verif.Spec.SameModel
import Verif.Lemmas.DataMoments
import Verif.Lemmas.DrawSelection
import Verif.Lemmas.PipelineLaw2
/-
Model dictionaries that differ only in the order of their entries have the same distribution of the data.
-/
namespace Skill
open Matrix MeasureTheory ProbabilityTheory Spec

/-- The latent factors in each period, for given initial values. -/
noncomputable def statesFrom (m : ModelDict ℝ) (val : Loc → ℝ) (cov : Covariates) (s : String → ℝ) (z : Noise → ℝ) : Nat → String → ℝ
  | 0 => s
  | t + 1 => fun f => nextState m val cov t (statesFrom m val cov s z t) f + val ⟨.shockSds, t, f, "-"⟩ * z (.shock t f)

open Classical in
/-- Measurements for given initial values of the factors. -/
noncomputable def measurementFrom (m : ModelDict ℝ) (val : Loc → ℝ) (cov : Covariates) (s : String → ℝ) (z : Noise → ℝ) (t : Nat) (v : String) : ℝ :=
  (("constant" :: m.controls.getD []).map (fun c => val ⟨.controls, t, v, c⟩ * cov.control t c)).sum +
    ((latents m).map (fun f => if Measures m t v f ∨ Anchors m v f then val ⟨.loadings, t, v, f⟩ * statesFrom m val cov s z t f else 0)).sum +
    val ⟨.measSds, t, v, "-"⟩ * z (.error t v)

theorem states_eq (m : ModelDict ℝ) (val : Loc → ℝ) (cov : Covariates) (e : ℕ) (z : Noise → ℝ) : ∀ t, latentStates m val cov e z t = statesFrom m val cov (startState m val e z) z t
  | 0 => rfl
  | t + 1 => by
    funext f
    rw [latentStates, statesFrom, states_eq m val cov e z t]

theorem measurement_eq (m : ModelDict ℝ) (val : Loc → ℝ) (cov : Covariates) (e : ℕ) (z : Noise → ℝ) (t : ℕ) (v : String) :
    measurementValue m val cov e z t v = measurementFrom m val cov (startState m val e z) z t v := by
  unfold measurementValue measurementFrom
  rw [states_eq]

variable {m m' : ModelDict ℝ}

theorem mem_latents_iff (m : ModelDict ℝ) (f : String) : f ∈ latents m ↔ IsLatent m f := by
  unfold latents IsLatent
  rw [List.mem_map]
  constructor
  · rintro ⟨⟨a, b⟩, h, rfl⟩
    exact ⟨b, h⟩
  · rintro ⟨b, h⟩
    exact ⟨_, h, rfl⟩

theorem Spec.SameModel.latents_perm (h : SameModel m m') (hg : GoodNames m) (hg' : GoodNames m') : (latents m).Perm (latents m') :=
  (List.perm_ext_iff_of_nodup hg.keys.factors hg'.keys.factors).mpr (fun f => by
    show f ∈ latents m ↔ f ∈ latents m'
    rw [mem_latents_iff, mem_latents_iff, h.latent])

theorem Spec.SameModel.all_perm (h : SameModel m m') (hg : GoodNames m) (hg' : GoodNames m') : (allFactors m).Perm (allFactors m') :=
  (List.perm_ext_iff_of_nodup hg.distinct hg'.distinct).mpr (fun f => by
    unfold allFactors
    rw [List.mem_append, List.mem_append, h.observed]
    show f ∈ latents m ∨ _ ↔ f ∈ latents m' ∨ _
    rw [mem_latents_iff, mem_latents_iff, h.latent])

theorem Spec.SameModel.controls_perm (h : SameModel m m') (hg : GoodNames m) (hg' : GoodNames m') : ("constant" :: m.controls.getD []).Perm ("constant" :: m'.controls.getD []) :=
  (List.perm_ext_iff_of_nodup hg.controls hg'.controls).mpr (fun f => by rw [List.mem_cons, List.mem_cons, h.controls])

theorem Spec.SameModel.anchors (h : SameModel m m') (v f : String) : Anchors m v f ↔ Anchors m' v f := by
  unfold Anchors
  exact exists_congr (fun o => by rw [h.anchored])

theorem outcome_iff (hg : GoodNames m) (f o : String) : outcome m f = some o ↔ AnchoredIn m f o := by
  rw [← outcomeOf_eq, outcomeOf_some hg.keys]

theorem Spec.SameModel.outcome (h : SameModel m m') (hg : GoodNames m) (hg' : GoodNames m') (f : String) : Spec.outcome m f = Spec.outcome m' f := by
  rw [Option.ext_iff]
  intro o
  rw [outcome_iff hg, outcome_iff hg', h.anchored]

theorem Spec.SameModel.scale (h : SameModel m m') (hg : GoodNames m) (hg' : GoodNames m') {val val' : Loc → ℝ} (hval : ∀ l : Loc, l.cat = .loadings ∨ l.cat = .controls → val' l = val l) (t : ℕ) (f : String) :
    anchorScale m' val' t f = anchorScale m val t f ∧ anchorConstant m' val' t f = anchorConstant m val t f := by
  unfold anchorScale anchorConstant
  rw [← h.outcome hg hg' f]
  cases Spec.outcome m f with
  | none => exact ⟨rfl, rfl⟩
  | some o =>
    refine ⟨hval _ (Or.inl rfl), ?_⟩
    dsimp only
    by_cases hi : AnchorFlag m AnchoringSpec.ignoreConstant
    · rw [if_pos hi, if_pos (h.ignore.mp hi)]
    · rw [if_neg hi, if_neg (fun h' => hi (h.ignore.mpr h'))]
      exact hval _ (Or.inr rfl)

/-- The values of the parameters that matter after the first period. -/
def Dynamic (val val' : Loc → ℝ) : Prop := ∀ l : Loc, l.cat ≠ .mixtureWeights → l.cat ≠ .initialStates → l.cat ≠ .initialCholcovs → val' l = val l

theorem Dynamic.scales {val val' : Loc → ℝ} (h : Dynamic val val') : ∀ l : Loc, l.cat = .loadings ∨ l.cat = .controls → val' l = val l := by
  intro l hl
  refine h l ?_ ?_ ?_ <;> rcases hl with hl | hl <;> rw [hl] <;> decide

theorem Spec.SameModel.next (h : SameModel m m') (hg : GoodNames m) (hg' : GoodNames m') {val val' : Loc → ℝ} (hval : Dynamic val val') (cov : Covariates) (t : ℕ) {s s' : String → ℝ} (hs : ∀ f ∈ latents m, s' f = s f) {f : String}
    (hf : f ∈ latents m) : nextState m' val' cov t s' f = nextState m val cov t s f := by
  have hl : ∀ g, g ∈ latents m ↔ g ∈ latents m' := fun g => (h.latents_perm hg hg').mem_iff
  have hx : ∀ g, (if g ∈ latents m' then anchoredValue m' val' t g (s' g) else cov.factor t g) = (if g ∈ latents m then anchoredValue m val t g (s g) else cov.factor t g) := by
    intro g
    by_cases hgm : g ∈ latents m
    · rw [if_pos hgm, if_pos ((hl g).mp hgm)]
      unfold anchoredValue
      rw [(h.scale hg hg' hval.scales t g).1, (h.scale hg hg' hval.scales t g).2, hs g hgm]
    · rw [if_neg hgm, if_neg (fun h => hgm ((hl g).mpr h))]
  unfold nextState
  rw [(h.scale hg hg' hval.scales (t + 1) f).1, (h.scale hg hg' hval.scales (t + 1) f).2]
  congr 2
  simp only [hx]
  unfold nextAnchored
  by_cases hc : HasTransition m f "constant"
  · rw [if_pos hc, if_pos ((h.transitions _ _).mp hc)]
  rw [if_neg hc, if_neg (fun h' => hc ((h.transitions _ _).mpr h'))]
  unfold linearValue linearTerms
  have hv : ∀ name, val' ⟨.transition, t, f, name⟩ = val ⟨.transition, t, f, name⟩ := fun name => hval _ (by simp) (by simp) (by simp)
  simp only [hv]
  rw [((h.all_perm hg hg').map _).sum_eq]

theorem Spec.SameModel.states (h : SameModel m m') (hg : GoodNames m) (hg' : GoodNames m') {val val' : Loc → ℝ} (hval : Dynamic val val') (cov : Covariates) {s s' : String → ℝ} (hs : ∀ f ∈ latents m, s' f = s f) (z : Noise → ℝ) :
    ∀ (t : ℕ), ∀ f ∈ latents m, statesFrom m' val' cov s' z t f = statesFrom m val cov s z t f
  | 0, f, hf => hs f hf
  | t + 1, f, hf => by
    show nextState m' val' cov t _ f + _ = nextState m val cov t _ f + _
    rw [h.next hg hg' hval cov t (h.states hg hg' hval cov hs z t) hf, hval ⟨.shockSds, t, f, "-"⟩ (by simp) (by simp) (by simp)]

theorem Spec.SameModel.measurement (h : SameModel m m') (hg : GoodNames m) (hg' : GoodNames m') {val val' : Loc → ℝ} (hval : Dynamic val val') (cov : Covariates) {s s' : String → ℝ} (hs : ∀ f ∈ latents m, s' f = s f)
    {z z' : Noise → ℝ} (hz : ∀ t f, z' (.shock t f) = z (.shock t f)) (hz' : ∀ t f, z' (.error t f) = z (.error t f)) (t : ℕ) (v : String) : measurementFrom m' val' cov s' z' t v = measurementFrom m val cov s z t v := by
  have hst : ∀ t, statesFrom m' val' cov s' z' t = statesFrom m' val' cov s' z t := by
    intro t
    induction t with
    | zero => rfl
    | succ t ih =>
      funext f
      show nextState m' val' cov t _ f + _ = nextState m' val' cov t _ f + _
      rw [ih, hz]
  unfold measurementFrom
  rw [hst, hz', hval ⟨.measSds, t, v, "-"⟩ (by simp) (by simp) (by simp)]
  have hc : ∀ c, val' ⟨.controls, t, v, c⟩ = val ⟨.controls, t, v, c⟩ := fun c => hval _ (by simp) (by simp) (by simp)
  have hl : ∀ f, val' ⟨.loadings, t, v, f⟩ = val ⟨.loadings, t, v, f⟩ := fun f => hval _ (by simp) (by simp) (by simp)
  simp only [hc, hl]
  rw [((h.controls_perm hg hg').map _).sum_eq, ← ((h.latents_perm hg hg').map _).sum_eq]
  congr 3
  refine List.map_congr_left (fun f hf => ?_)
  rw [h.states hg hg' hval cov hs z t f hf]
  by_cases hM : Measures m t v f ∨ Anchors m v f
  · rw [if_pos hM, if_pos (by rwa [← h.measures, ← h.anchors])]
  · rw [if_neg hM, if_neg (by rwa [← h.measures, ← h.anchors])]

end Skill

namespace Skill
open Matrix MeasureTheory ProbabilityTheory Spec
variable {m m' : ModelDict ℝ}

theorem start_sum (hg : GoodNames m) (val : Loc → ℝ) (e : ℕ) (z : Noise → ℝ) (f : String) :
    startState m val e z f = val ⟨.initialStates, 0, Spec.mixtureName e, f⟩ + ((latents m).map (fun h => cholEntry m val e f h * z (.start h))).sum := by
  unfold startState
  rw [sum_take, ← List.sum_ofFn]
  congr 2
  refine List.ext_getElem (by simp) (fun a h1 h2 => ?_)
  have ha : a < (latents m).length := by simpa using h1
  rw [List.getElem_ofFn, List.getElem_map]
  unfold cholEntry
  have hidx : (latents m).idxOf (latents m)[a] = a := List.Nodup.idxOf_getElem hg.keys.factors a ha
  rw [hidx]
  show (if a ≤ _ then _ else _) = _
  split_ifs
  · rfl
  · rw [zero_mul]

/-- The matrix of the initial factors in terms of the random numbers, in the order of the factors of `m`. -/
noncomputable def cholMatrix (m m' : ModelDict ℝ) (val : Loc → ℝ) (e : ℕ) : Matrix (Fin (nLat m)) (Fin (nLat m)) ℝ := fun i j => cholEntry m' val e (latName m i) (latName m j)

theorem start_matrix (h : SameModel m m') (hg : GoodNames m) (hg' : GoodNames m') (val : Loc → ℝ) (e : ℕ) (z : Noise → ℝ) :
    (fun i : Fin (nLat m) => startState m' val e z (latName m i)) = fun (i : Fin (nLat m)) => val ⟨.initialStates, 0, Spec.mixtureName e, latName m i⟩ + (cholMatrix m m' val e *ᵥ fun j => z (.start (latName m j))) i := by
  funext i
  rw [start_sum hg', ← ((h.latents_perm hg hg').map _).sum_eq, latents_ofFn, List.map_ofFn, List.sum_ofFn]
  rfl

theorem cholMatrix_cov (h : SameModel m m') (hg : GoodNames m) (hg' : GoodNames m') (val : Loc → ℝ) (e : ℕ) (i j : Fin (nLat m)) :
    (cholMatrix m m' val e * (cholMatrix m m' val e)ᵀ) i j = initialCov m' val e (latName m i) (latName m j) := by
  unfold initialCov
  rw [← ((h.latents_perm hg hg').map _).sum_eq, latents_ofFn, List.map_ofFn, List.sum_ofFn, Matrix.mul_apply]
  rfl

theorem SameModel.refl (m : ModelDict ℝ) : SameModel m m := ⟨fun _ => Iff.rfl, fun _ _ => Iff.rfl, fun _ _ _ => Iff.rfl, fun _ => Iff.rfl, fun _ => Iff.rfl, fun _ _ => Iff.rfl, Iff.rfl⟩

theorem comap_pi_le {Ω J : Type} (mΩ : MeasurableSpace Ω) (f : Ω → J → ℝ) (h : ∀ j, Measurable[mΩ] (fun ω => f ω j)) : MeasurableSpace.comap f MeasurableSpace.pi ≤ mΩ := (measurable_pi_iff.mpr h).comap_le

variable {Ω : Type} [MeasurableSpace Ω] {P : Measure Ω} [IsProbabilityMeasure P] {k : ℕ} {val val' : Loc → ℝ} {E : Ω → Fin k} {Z : Noise → Ω → ℝ}

/-- The random numbers except the ones for initial values. -/
def laterNoise (z : Noise → ℝ) : Noise → ℝ
  | .start _ => 0
  | .shock t f => z (.shock t f)
  | .error t v => z (.error t v)

theorem measurable_laterNoise : Measurable laterNoise := by
  refine measurable_pi_iff.mpr (fun j => ?_)
  cases j with
  | start f => exact measurable_const
  | shock t f => exact measurable_pi_apply _
  | error t f => exact measurable_pi_apply _

theorem start_independent (m : ModelDict ℝ) (hZ : RandomNoise P val E Z) : IndepFun (fun ω (j : Fin (nLat m)) => Z (.start (latName m j)) ω) (fun ω => laterNoise (fun j => Z j ω)) P := by
  have hle : ∀ j, MeasurableSpace.comap (Z j) inferInstance ≤ (inferInstance : MeasurableSpace Ω) := fun j => (hZ.measurable j).comap_le
  have h := indep_iSup_of_disjoint hle hZ.independent (S := {j | ∃ f, j = .start f}) (T := {j | ¬∃ f, j = .start f}) (Set.disjoint_left.mpr (fun j h h' => h' h))
  refine indep_of_indep_of_le_left (indep_of_indep_of_le_right h ?_) ?_
  · refine comap_pi_le _ _ (fun j => ?_)
    cases j with
    | start f => exact measurable_const
    | shock t f =>
      rw [measurable_iff_comap_le]
      exact le_iSup₂_of_le (f := fun j (_ : j ∈ {j : Noise | ¬∃ f, j = .start f}) => MeasurableSpace.comap (Z j) inferInstance) (.shock t f) (by simp) le_rfl
    | error t f =>
      rw [measurable_iff_comap_le]
      exact le_iSup₂_of_le (f := fun j (_ : j ∈ {j : Noise | ¬∃ f, j = .start f}) => MeasurableSpace.comap (Z j) inferInstance) (.error t f) (by simp) le_rfl
  · refine comap_pi_le _ _ (fun j => ?_)
    rw [measurable_iff_comap_le]
    exact le_iSup₂_of_le (f := fun j (_ : j ∈ {j : Noise | ∃ f, j = .start f}) => MeasurableSpace.comap (Z j) inferInstance) (.start (latName m j)) ⟨_, rfl⟩ le_rfl

/-- The initial factors have the same distribution. -/
theorem start_law (h : SameModel m m') (hg : GoodNames m) (hg' : GoodNames m') (hZ : RandomNoise P val E Z) {e e' : ℕ} {v v' : Loc → ℝ}
    (hmean : ∀ f, IsLatent m f → v' ⟨.initialStates, 0, Spec.mixtureName e', f⟩ = v ⟨.initialStates, 0, Spec.mixtureName e, f⟩) (hcov : ∀ f g, IsLatent m f → IsLatent m g → initialCov m' v' e' f g = initialCov m v e f g) :
    P.map (fun ω (i : Fin (nLat m)) => startState m' v' e' (fun j => Z j ω) (latName m i)) = P.map (fun ω (i : Fin (nLat m)) => startState m v e (fun j => Z j ω) (latName m i)) := by
  have hlat : ∀ i : Fin (nLat m), IsLatent m (latName m i) := fun i => (mem_latents_iff m _).mp (latName_mem i)
  have hstd := map_select (P := P) hZ.measurable hZ.normal hZ.independent (g := fun j : Fin (nLat m) => Noise.start (latName m j)) (fun a b hab => latName_injective hg (by injection hab))
  have hz : Measurable (fun ω (j : Fin (nLat m)) => Z (.start (latName m j)) ω) := measurable_pi_iff.mpr (fun j => hZ.measurable _)
  have key : ∀ (A : Matrix (Fin (nLat m)) (Fin (nLat m)) ℝ) (b : Fin (nLat m) → ℝ), P.map (fun ω i => b i + (A *ᵥ fun j => Z (.start (latName m j)) ω) i) = ((stdNormal (Fin (nLat m))).map (fun z => Aᵀᵀ *ᵥ z)).map (fun x => b + x) := by
    intro A b
    have hA : Measurable (fun z : Fin (nLat m) → ℝ => Aᵀᵀ *ᵥ z) := (mulVecCLM Aᵀ).continuous.measurable
    rw [← hstd, Measure.map_map hA hz, Measure.map_map (by fun_prop) (hA.comp hz), transpose_transpose]
    rfl
  have e1 := funext (fun ω => start_matrix h hg hg' v' e' (fun j => Z j ω))
  have e2 := funext (fun ω => start_matrix (SameModel.refl m) hg hg v e (fun j => Z j ω))
  rw [e1, e2, key, key, map_stdNormal_eq (cholMatrix m m' v' e')ᵀ (cholMatrix m m v e)ᵀ]
  · congr 1
    funext x
    congr 1
    funext i
    exact hmean _ (hlat i)
  · ext i j
    rw [transpose_transpose, transpose_transpose, cholMatrix_cov h hg hg', cholMatrix_cov (SameModel.refl m) hg hg]
    exact hcov _ _ (hlat i) (hlat j)

end Skill

namespace Skill
open Matrix MeasureTheory ProbabilityTheory Spec
variable {m m' : ModelDict ℝ}

/-- A vector as function of the names of the factors. -/
noncomputable def byLatent (m : ModelDict ℝ) (s : Fin (nLat m) → ℝ) (f : String) : ℝ := if h : (latents m).idxOf f < nLat m then s ⟨(latents m).idxOf f, h⟩ else 0

theorem byLatent_eq (m : ModelDict ℝ) (g : String → ℝ) {f : String} (hf : f ∈ latents m) : byLatent m (fun i => g (latName m i)) f = g f := by
  have hlen : (latents m).length = nLat m := by rw [latents_ofFn, List.length_ofFn]
  have hlt : (latents m).idxOf f < (latents m).length := List.idxOf_lt_length_iff.mpr hf
  unfold byLatent
  rw [dif_pos (hlen ▸ hlt)]
  refine congrArg g ?_
  have h1 := latName_get (m := m) ⟨(latents m).idxOf f, hlen ▸ hlt⟩
  have h2 : (latents m)[(latents m).idxOf f]? = some f := by rw [List.getElem?_eq_getElem hlt, List.getElem_idxOf]
  exact Option.some.inj (h1.symm.trans h2)

theorem measurable_statesFrom (m : ModelDict ℝ) (v : Loc → ℝ) (cov : Covariates) : ∀ (t : ℕ) (f : String), Measurable (fun d : (Fin (nLat m) → ℝ) × (Noise → ℝ) => statesFrom m v cov (byLatent m d.1) d.2 t f)
  | 0, f => by
    show Measurable (fun d : (Fin (nLat m) → ℝ) × (Noise → ℝ) => byLatent m d.1 f)
    unfold byLatent
    split_ifs
    · exact (measurable_pi_apply _).comp measurable_fst
    · exact measurable_const
  | t + 1, f => by
    have ih := measurable_statesFrom m v cov t
    have hs : ∀ g, Measurable (fun d : (Fin (nLat m) → ℝ) × (Noise → ℝ) => if g ∈ latents m then anchoredValue m v t g (statesFrom m v cov (byLatent m d.1) d.2 t g) else cov.factor t g) := by
      intro g
      split_ifs
      · exact measurable_const.add ((ih g).const_mul _)
      · exact measurable_const
    have hn : Measurable (fun d : (Fin (nLat m) → ℝ) × (Noise → ℝ) => nextAnchored m v t (fun g => if g ∈ latents m then anchoredValue m v t g (statesFrom m v cov (byLatent m d.1) d.2 t g) else cov.factor t g) f) := by
      unfold nextAnchored
      split_ifs
      · exact hs f
      · unfold linearValue
        exact (measurable_list _ (fun g _ => (hs g).const_mul _)).add measurable_const
    have hd : Measurable (fun d : (Fin (nLat m) → ℝ) × (Noise → ℝ) => nextState m v cov t (statesFrom m v cov (byLatent m d.1) d.2 t) f) := (hn.sub measurable_const).div_const _
    exact hd.add (((measurable_pi_apply (Noise.shock t f)).comp measurable_snd).const_mul _)

theorem measurable_observedFrom (m : ModelDict ℝ) (v : Loc → ℝ) (cov : Covariates) (updates : List (Nat × String)) :
    Measurable (fun d : (Fin (nLat m) → ℝ) × (Noise → ℝ) => observedData updates cov (measurementFrom m v cov (byLatent m d.1) d.2)) := by
  refine measurable_pi_iff.mpr (fun j => ?_)
  unfold observedData
  split_ifs
  · unfold measurementFrom
    refine (measurable_const.add (measurable_list _ (fun f _ => ?_))).add (((measurable_pi_apply (Noise.error _ _)).comp measurable_snd).const_mul _)
    split_ifs
    · exact (measurable_statesFrom m v cov _ f).const_mul _
    · exact measurable_const
  · exact measurable_const

variable {Ω : Type} [MeasurableSpace Ω] {P : Measure Ω} [IsProbabilityMeasure P] {k : ℕ} {val val' : Loc → ℝ} {E : Ω → Fin k} {Z : Noise → Ω → ℝ}

/-- The distribution of the data given the mixture element, in terms of the distributions of initial factors and later random numbers. -/
theorem element_prod (h : SameModel m m') (hg : GoodNames m) (hg' : GoodNames m') (hZ : RandomNoise P val E Z) {v v' : Loc → ℝ} (hv : Dynamic v v') (e' : ℕ) (cov : Covariates) (updates : List (Nat × String)) :
    P.map (fun ω => observedData updates cov (measurementValue m' v' cov e' (fun j => Z j ω))) =
      ((P.map (fun ω (i : Fin (nLat m)) => startState m' v' e' (fun j => Z j ω) (latName m i))).prod (P.map (fun ω => laterNoise (fun j => Z j ω)))).map
        (fun d => observedData updates cov (measurementFrom m v cov (byLatent m d.1) d.2)) := by
  have hZm : Measurable (fun ω j => Z j ω) := measurable_pi_iff.mpr hZ.measurable
  have hR : Measurable (fun ω => laterNoise (fun j => Z j ω)) := measurable_laterNoise.comp hZm
  have hS : Measurable (fun ω (i : Fin (nLat m)) => startState m' v' e' (fun j => Z j ω) (latName m i)) :=
    measurable_pi_iff.mpr (fun i => (measurable_states m' v' cov e' 0 (latName m i)).comp hZm)
  have hφ : Measurable (fun (z : Fin (nLat m) → ℝ) (i : Fin (nLat m)) => v' ⟨.initialStates, 0, Spec.mixtureName e', latName m i⟩ + (cholMatrix m m' v' e' *ᵥ z) i) := by
    have hA : Measurable (fun z : Fin (nLat m) → ℝ => (cholMatrix m m' v' e')ᵀᵀ *ᵥ z) := (mulVecCLM (cholMatrix m m' v' e')ᵀ).continuous.measurable
    rw [transpose_transpose] at hA
    exact measurable_pi_iff.mpr (fun i => measurable_const.add ((measurable_pi_apply i).comp hA))
  have hind : IndepFun (fun ω (i : Fin (nLat m)) => startState m' v' e' (fun j => Z j ω) (latName m i)) (fun ω => laterNoise (fun j => Z j ω)) P := by
    rw [funext (fun ω => start_matrix h hg hg' v' e' (fun j => Z j ω))]
    exact (start_independent m hZ).comp hφ measurable_id
  rw [← (indepFun_iff_map_prod_eq_prod_map_map hS.aemeasurable hR.aemeasurable).mp hind, Measure.map_map (measurable_observedFrom m v cov updates) (hS.prodMk hR)]
  congr 1
  funext ω
  simp only [Function.comp]
  congr 1
  funext t w
  rw [measurement_eq]
  refine h.measurement hg hg' hv cov (z := laterNoise (fun j => Z j ω)) (z' := fun j => Z j ω) (fun f hf => ?_) (fun _ _ => rfl) (fun _ _ => rfl) t w
  exact (byLatent_eq m (startState m' v' e' (fun j => Z j ω)) hf).symm

theorem element_law (h : SameModel m m') (hg : GoodNames m) (hg' : GoodNames m') (hZ : RandomNoise P val E Z) {v v' : Loc → ℝ} (hv : Dynamic v v') {e e' : ℕ}
    (hmean : ∀ f, IsLatent m f → v' ⟨.initialStates, 0, Spec.mixtureName e', f⟩ = v ⟨.initialStates, 0, Spec.mixtureName e, f⟩) (hcov : ∀ f g, IsLatent m f → IsLatent m g → initialCov m' v' e' f g = initialCov m v e f g)
    (cov : Covariates) (updates : List (Nat × String)) :
    P.map (fun ω => observedData updates cov (measurementValue m' v' cov e' (fun j => Z j ω))) = P.map (fun ω => observedData updates cov (measurementValue m v cov e (fun j => Z j ω))) := by
  rw [element_prod h hg hg' hZ hv, element_prod (SameModel.refl m) hg hg hZ (fun _ _ _ _ => rfl : Dynamic v v), start_law h hg hg' hZ hmean hcov]

omit [IsProbabilityMeasure P] in
/-- A mixture of distributions. -/
theorem mixture_map (hZ : RandomNoise P val E Z) {β : Type} [MeasurableSpace β] {X : Fin k → (Noise → ℝ) → β} (hX : ∀ e, Measurable (X e)) {A : Set β} (hA : MeasurableSet A) :
    P.map (fun ω => X (E ω) (fun j => Z j ω)) A = ∑ e, P (E ⁻¹' {e}) * P.map (fun ω => X e (fun j => Z j ω)) A := by
  have hZm : Measurable (fun ω j => Z j ω) := measurable_pi_iff.mpr hZ.measurable
  have hXE : Measurable (fun ω => X (E ω) (fun j => Z j ω)) := (measurable_from_prod_countable_right (f := fun d : Fin k × (Noise → ℝ) => X d.1 d.2) hX).comp (hZ.measurable_element.prodMk hZm)
  rw [Measure.map_apply hXE hA]
  have hsplit : (fun ω => X (E ω) (fun j => Z j ω)) ⁻¹' A = ⋃ e, (E ⁻¹' {e} ∩ (fun ω => X e (fun j => Z j ω)) ⁻¹' A) := by
    ext ω
    simp
  rw [hsplit, measure_iUnion, tsum_fintype]
  · refine Finset.sum_congr rfl (fun e _ => ?_)
    rw [Measure.map_apply (f := fun ω => X e (fun j => Z j ω)) ((hX e).comp hZm) hA]
    exact hZ.element_independent.measure_inter_preimage_eq_mul {e} ((X e) ⁻¹' A) (measurableSet_singleton e) (hX e hA)
  · intro e e' hne
    rw [Function.onFun, Set.disjoint_left]
    rintro ω ⟨h1, _⟩ ⟨h2, _⟩
    exact hne (h1.symm.trans h2)
  · intro e
    exact (hZ.measurable_element (measurableSet_singleton e)).inter ((hX e).comp hZm hA)

omit [IsProbabilityMeasure P] in
theorem relabelled (hZ : RandomNoise P val E Z) (σ : Equiv.Perm (Fin k)) (hw : ∀ e : Fin k, val' ⟨.mixtureWeights, 0, Spec.mixtureName (σ e), "-"⟩ = val ⟨.mixtureWeights, 0, Spec.mixtureName e, "-"⟩) :
    RandomNoise P val' (fun ω => σ (E ω)) Z where
  measurable_element := (measurable_of_countable _).comp hZ.measurable_element
  measurable := hZ.measurable
  normal := hZ.normal
  independent := hZ.independent
  element_independent := hZ.element_independent.comp (measurable_of_countable σ) measurable_id
  element_weights := by
    intro e
    have : (fun ω => σ (E ω)) ⁻¹' {e} = E ⁻¹' {σ.symm e} := by
      ext ω
      simp [Equiv.eq_symm_apply]
    rw [this, hZ.element_weights, ← hw, Equiv.apply_symm_apply]

/-- The data of an individual have the same distribution in both models. -/
theorem same_law (h : SameModel m m') (hg : GoodNames m) (hg' : GoodNames m') {σ : Equiv.Perm (Fin k)} (hp : SameParameters m m' σ val val') (hZ : RandomNoise P val E Z) (cov : Covariates) (updates : List (Nat × String)) :
    P.map (fun ω => observedData updates cov (measurementValue m' val' cov (σ (E ω)) (fun j => Z j ω))) = P.map (fun ω => observedData updates cov (measurementValue m val cov (E ω) (fun j => Z j ω))) := by
  have hX : ∀ (m : ModelDict ℝ) (v : Loc → ℝ) (e : ℕ), Measurable (fun z : Noise → ℝ => observedData updates cov (measurementValue m v cov e z)) := by
    intro m v e
    exact (measurable_observed (k := e + 1) m v cov updates).comp (measurable_const (a := Fin.last e) |>.prodMk measurable_id)
  refine Measure.ext (fun A hA => ?_)
  rw [mixture_map hZ (X := fun e z => observedData updates cov (measurementValue m' val' cov (σ e) z)) (fun e => hX m' val' _) hA,
    mixture_map hZ (X := fun e z => observedData updates cov (measurementValue m val cov e z)) (fun e => hX m val _) hA]
  refine Finset.sum_congr rfl (fun e _ => ?_)
  rw [element_law h hg hg' hZ (fun l h1 h2 h3 => hp.others l h1 h2 h3) (hp.means e) (hp.covs e)]

end Skill
