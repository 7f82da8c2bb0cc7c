import Verif.Lemmas.Quadratic
import Verif.Lemmas.PipelineLaw2
import Verif.Lemmas.NormalMoments
import Verif.Props.KalmanPredict
/-
C125: predicted states are exact expectations for quadratic transition functions.
-/
namespace Skill
open Matrix MeasureTheory Spec

/-- **C125**: consider latent and observed factors with distinct names, where each latent factor has the transition function `kind f`: linear, translog, linear_and_squares or constant, with the parameters `v f`. For
each distribution μ of the latent factors whose mean and covariance matrix are those of the filter (normal or not), the predicted state of a factor is the expectation of its next value: the next value is computed
with the formula of the transition function from the anchored values of the factors and then unanchored. -/
theorem C125_quadratic_predict {latent observedNames : List String} (hd : (latent ++ observedNames).Nodup) {kind : String → String} (hkind : ∀ f ∈ latent, kind f ∈ ["linear", "translog", "linear_and_squares", "constant"])
    (v : String → String → ℝ) (qr : QR) {nObs nMix : ℕ} (hshape : nMix = 1 ∨ observedNames.length = 0) {kappa : ℝ} (hk : 0 < latent.length + kappa) (states : Fin nObs → Fin nMix → Fin latent.length → ℝ)
    (upperChols : Fin nObs → Fin nMix → Matrix (Fin latent.length) (Fin latent.length) ℝ) (shockSds : Fin latent.length → ℝ) (scaling constants : Fin 2 → Fin (latent.length + observedNames.length) → ℝ)
    (observed : Fin nObs → Fin observedNames.length → ℝ) :
    let factors := latent ++ observedNames
    let fns : Dict TransFn := latent.map (fun f => (f, .builtin (kind f)))
    let params : Dict (List ℝ) := latent.map (fun f => (f, (paramNamesOf factors (.builtin (kind f))).map (v f)))
    ∃ r, kalmanPredict qr states upperChols (sigmaScalingFactor latent.length kappa) (sigmaWeights latent.length kappa) (transitionValues latent.length factors fns params) shockSds scaling constants observed = .ok r ∧
      ∀ (i : Fin nObs) (e : Fin nMix) (μ : Measure (Fin latent.length → ℝ)), HasMoments μ (states i e) ((upperChols i e)ᵀ * upperChols i e) →
        ∀ value : (Fin latent.length → ℝ) → String → ℝ,
          (∀ x g, value x (latent.get g) = x g * scaling 0 (Fin.castAdd _ g) + constants 0 (Fin.castAdd _ g)) →
          (∀ x o, value x (observedNames.get o) = observed i o * scaling 0 (Fin.natAdd _ o) + constants 0 (Fin.natAdd _ o)) →
          ∀ f : Fin latent.length,
            let next := fun x => (nextValue factors (value x) (v (latent.get f)) (latent.get f) (.builtin (kind (latent.get f))) - constants 1 (Fin.castAdd _ f)) / scaling 1 (Fin.castAdd _ f)
            Integrable next μ ∧ r.1 i e f = ∫ x, next x ∂μ := by
  intro factors fns params
  unfold kalmanPredict
  rw [calculateSigmaPoints_ok (hshape.imp id Or.inl)]
  refine ⟨_, rfl, ?_⟩
  intro i e μ hμ value hv1 hv2 f next
  have hlatent : ∀ g ∈ latent, g ∈ factors := fun g hg => List.mem_append_left _ hg
  -- the values of the factors are affine functions of the latent factors
  have haff : ∀ g ∈ factors, Aff (fun x => value x g) := by
    intro g hg
    rcases List.mem_append.mp hg with h | h
    · obtain ⟨a, rfl⟩ := List.mem_iff_get.mp h
      refine ⟨Pi.single a (scaling 0 (Fin.castAdd _ a)), constants 0 (Fin.castAdd _ a), fun x => ?_⟩
      show value x _ = _
      rw [hv1, single_dotProduct, mul_comm]
    · obtain ⟨o, rfl⟩ := List.mem_iff_get.mp h
      simp only [hv2]
      exact Aff.const _
  have hquad : Quad next := by
    have := ((quad_nextValue haff (v (latent.get f)) (hlatent _ (List.get_mem _ f)) (hkind _ (List.get_mem _ f))).add (Aff.const (-constants 1 (Fin.castAdd _ f))).quad).smul (scaling 1 (Fin.castAdd _ f))⁻¹
    refine Eq.mp (congrArg Quad (funext fun x => ?_)) this
    show _ = _ / _
    rw [div_eq_inv_mul, sub_eq_add_neg]
  obtain ⟨h1, h2⟩ := hquad.exact hk hμ
  refine ⟨h1, ?_⟩
  rw [← h2]
  show ∑ s, sigmaWeights latent.length kappa s * _ = _
  refine Finset.sum_congr rfl (fun s _ => ?_)
  congr 1
  set x := latentSigmaPoints states upperChols (sigmaScalingFactor latent.length kappa) i e s
  show (transitionValues latent.length factors fns params (fun g => Fin.append x (observed i) g * scaling 0 g + constants 0 g) f - constants 1 (Fin.castAdd _ f)) / scaling 1 (Fin.castAdd _ f) = next x
  have hmap : List.ofFn (fun g => Fin.append x (observed i) g * scaling 0 g + constants 0 g) = factors.map (value x) := by
    refine List.ext_getElem (by simp [factors]) (fun k hk1 hk2 => ?_)
    simp only [List.length_ofFn] at hk1
    rw [List.getElem_ofFn, List.getElem_map]
    by_cases hlt : k < latent.length
    · have := hv1 x ⟨k, hlt⟩
      rw [show factors[k]'(by simpa [factors] using hk1) = latent.get ⟨k, hlt⟩ from List.getElem_append_left hlt, this]
      rw [show (⟨k, hk1⟩ : Fin (latent.length + observedNames.length)) = Fin.castAdd _ ⟨k, hlt⟩ from rfl, Fin.append_left]
    · have hlt' : k - latent.length < observedNames.length := by omega
      have := hv2 x ⟨k - latent.length, hlt'⟩
      rw [show factors[k]'(by simpa [factors] using hk1) = observedNames.get ⟨k - latent.length, hlt'⟩ from List.getElem_append_right (by omega), this]
      rw [show (⟨k, hk1⟩ : Fin (latent.length + observedNames.length)) = Fin.natAdd _ ⟨k - latent.length, hlt'⟩ from Fin.ext (by simp; omega), Fin.append_right]
  have hok := C50_combined_function (fs := factors) (fns := fns) (by
    intro fn hfn
    obtain ⟨g, hg, rfl⟩ := List.mem_map.mp hfn
    exact hlatent g hg) (value x) v (params := params) (by
    intro fn hfn
    obtain ⟨g, hg, rfl⟩ := List.mem_map.mp hfn
    refine Dict.getItem_of_mem ?_ (List.mem_map.mpr ⟨g, hg, rfl⟩)
    show (List.map Prod.fst (latent.map _)).Nodup
    rw [List.map_map]
    show (latent.map (fun f => f)).Nodup
    rw [List.map_id']
    exact hd.of_append_left) (by
    intro fn hfn
    obtain ⟨g, hg, rfl⟩ := List.mem_map.mp hfn
    have := hkind g hg
    simp only [List.mem_cons, List.not_mem_nil, or_false] at this
    rcases this with h | h | h | h <;> simp [TransFn.Usable, h, builtinParamNames])
  unfold transitionValues
  rw [hmap, hok]
  simp only [next, fns, List.map_map, List.getD_eq_getElem?_getD, List.getElem?_map, List.getElem?_eq_getElem f.isLt]
  rfl

namespace Ex

/-- Two latent factors: a has the transition function translog, b is constant; o is an observed factor. -/
def quadraticKind : String → String := fun f => if f = "a" then "translog" else "constant"

/-- C125 applies to this model, with anchoring, correlated factors that follow a normal distribution and all parameters equal to 1: the predicted state of factor a is the expectation of its next value
(a + b + o + a² + b² + o² + ab + ao + bo + 1 - constant) / scaling. -/
theorem C125_example (qr : QR) : ∃ r, kalmanPredict qr (nObs := 1) (nMix := 1) (n := 2) (nObserved := 1) (fun _ _ => ![1, 2]) (fun _ _ => !![2, 1; 0, 1]) (sigmaScalingFactor 2 2) (sigmaWeights 2 2)
      (transitionValues 2 ["a", "b", "o"] [("a", .builtin "translog"), ("b", .builtin "constant")] [("a", (paramsTranslog ["a", "b", "o"]).map (fun _ => 1)), ("b", [])])
      ![1, 0] (fun t => if t = 0 then ![2, 1, 1] else ![4, 1, 1]) (fun _ => ![5, 0, 0]) (fun _ _ => 7) = .ok r ∧
    let μ := (stdNormal (Fin 2)).map (fun z => ![1, 2] + !![2, 1; 0, 1]ᵀ *ᵥ z)
    r.1 0 0 0 = ∫ x, (translogValue ["a", "b", "o"] (fun g => if g = "a" then x 0 * 2 + 5 else if g = "b" then x 1 else 7) (fun _ => 1) - 5) / 4 ∂μ ∧ r.1 0 0 1 = ∫ x, x 1 ∂μ := by
  obtain ⟨r, hr, h⟩ := C125_quadratic_predict (latent := ["a", "b"]) (observedNames := ["o"]) (by decide) (kind := quadraticKind) (by decide) (fun _ _ => 1) qr (nObs := 1) (nMix := 1) (Or.inl rfl) (kappa := 2) (by norm_num)
    (fun _ _ => ![1, 2]) (fun _ _ => !![2, 1; 0, 1]) ![1, 0] (fun t => if t = 0 then ![2, 1, 1] else ![4, 1, 1]) (fun _ => ![5, 0, 0]) (fun _ _ => 7)
  refine ⟨r, hr, ?_⟩
  intro μ
  have h0 := h 0 0 μ (normal_hasMoments _ _) (fun x g => if g = "a" then x ⟨0, by decide⟩ * 2 + 5 else if g = "b" then x ⟨1, by decide⟩ else 7) (by
    intro x g
    match g with
    | ⟨0, _⟩ => rfl
    | ⟨1, _⟩ =>
      show x _ = x _ * 1 + 0
      rw [mul_one, add_zero]) (by
    intro x o
    match o with
    | ⟨0, _⟩ =>
      show (7 : ℝ) = 7 * 1 + 0
      norm_num)
  refine ⟨(h0 ⟨0, by decide⟩).2.trans ?_, (h0 ⟨1, by decide⟩).2.trans ?_⟩
  · refine integral_congr_ae (Filter.Eventually.of_forall (fun x => ?_))
    rfl
  refine integral_congr_ae (Filter.Eventually.of_forall (fun x => ?_))
  show (x _ - 0) / 1 = x 1
  rw [sub_zero, div_one]
  rfl

end Ex
end Skill
