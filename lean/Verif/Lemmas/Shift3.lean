import Verif.Spec.MovedLocations
import Verif.Spec.Params
/- Parameters of the built-in transition functions after a change of the locations of factors. -/
namespace Skill
open Spec

variable (factors : List String) (v τ : String → ℝ)

/-- The slope of the interaction terms at `τ` with respect to factor `g`. -/
noncomputable def crossSlope (g : String) : ℝ := ∑ i : Fin factors.length, ∑ j : Fin factors.length,
  if i < j then v (factors.get i ++ " * " ++ factors.get j) * ((if factors.get i = g then τ (factors.get j) else 0) + (if factors.get j = g then τ (factors.get i) else 0)) else 0

/-- New parameters of the transition function `name` of factor `f`, and the move of the factor in the next period. -/
noncomputable def movedStep (name f : String) (δ : ℝ) : (String → ℝ) × ℝ :=
  if name = "linear" then (fun p => if p = "constant" then v p - linearTerms factors τ v + δ else v p, δ)
  else if name = "linear_and_squares" then
    (fun p => if p = "constant" then v p - linearTerms factors τ v + squareTerms factors τ v + δ else if p ∈ factors then v p - 2 * v (p ++ " ** 2") * τ p else v p, δ)
  else if name = "translog" then
    (fun p => if p = "constant" then v p - linearTerms factors τ v + squareTerms factors τ v + interactionTerms factors τ v + δ
      else if p ∈ factors then v p - 2 * v (p ++ " ** 2") * τ p - crossSlope factors v τ p else v p, δ)
  else if name = "log_ces" then
    (fun p => if p ∈ factors then v p * Real.exp (v "phi" * -τ p) / (factors.map (fun g => v g * Real.exp (v "phi" * -τ g))).sum else v p,
      -Real.log (factors.map (fun g => v g * Real.exp (v "phi" * -τ g))).sum / v "phi")
  else if name = "log_ces_general" then (fun p => if p ∈ factors then v p * Real.exp (v ("sigma_" ++ p) * -τ p) * Real.exp (δ / v "tfp") else v p, δ)
  else (v, τ f)

variable {factors v τ}

theorem list_sum_pos {l : List String} {F : String → ℝ} (hl : l ≠ []) (h : ∀ g ∈ l, 0 < F g) : 0 < (l.map F).sum := by
  cases l with
  | nil => exact absurd rfl hl
  | cons a l =>
    rw [List.map_cons, List.sum_cons]
    refine add_pos_of_pos_of_nonneg (h a List.mem_cons_self) (List.sum_nonneg ?_)
    intro x hx
    obtain ⟨g, hg, rfl⟩ := List.mem_map.mp hx
    exact (h g (List.mem_cons_of_mem _ hg)).le

theorem map_sum_add (l : List String) (F G : String → ℝ) : (l.map (fun g => F g + G g)).sum = (l.map F).sum + (l.map G).sum := List.sum_map_add

theorem map_sum_mul (l : List String) (F : String → ℝ) (c : ℝ) : (l.map (fun g => F g * c)).sum = (l.map F).sum * c := List.sum_map_mul_right l F c

theorem linearTerms_add (x y : String → ℝ) : linearTerms factors (fun g => x g + y g) v = linearTerms factors x v + linearTerms factors y v := by
  unfold linearTerms
  rw [← map_sum_add]
  congr 1
  exact List.map_congr_left (fun g _ => mul_add _ _ _)

theorem linearTerms_congr {v' x x' : String → ℝ} (h : ∀ g ∈ factors, v' g = v g) (hx : ∀ g ∈ factors, x' g = x g) : linearTerms factors x' v' = linearTerms factors x v := by
  unfold linearTerms
  congr 1
  exact List.map_congr_left (fun g hg => by rw [h g hg, hx g hg])

theorem squareTerms_add (x : String → ℝ) : squareTerms factors (fun g => x g + τ g) v = squareTerms factors x v + (factors.map (fun g => 2 * v (g ++ " ** 2") * τ g * x g)).sum + squareTerms factors τ v := by
  unfold squareTerms
  rw [← map_sum_add, ← map_sum_add]
  congr 1
  exact List.map_congr_left (fun g _ => by ring)

theorem crossSlope_sum (hn : factors.Nodup) (x : String → ℝ) : (factors.map (fun g => crossSlope factors v τ g * x g)).sum =
    ∑ i : Fin factors.length, ∑ j : Fin factors.length, if i < j then v (factors.get i ++ " * " ++ factors.get j) * (τ (factors.get j) * x (factors.get i) + τ (factors.get i) * x (factors.get j)) else 0 := by
  have hl : factors.map (fun g => crossSlope factors v τ g * x g) = List.ofFn (fun k : Fin factors.length => crossSlope factors v τ (factors.get k) * x (factors.get k)) := by
    have : ∀ F : String → ℝ, factors.map F = List.ofFn (fun k => F (factors.get k)) := fun F => by
      conv_lhs => rw [← List.ofFn_get factors, List.map_ofFn]
      rfl
    exact this _
  rw [hl, List.sum_ofFn]
  unfold crossSlope
  simp only [Finset.sum_mul]
  rw [Finset.sum_comm]
  refine Finset.sum_congr rfl (fun i _ => ?_)
  rw [Finset.sum_comm]
  refine Finset.sum_congr rfl (fun j _ => ?_)
  have hget : ∀ a b : Fin factors.length, factors.get a = factors.get b ↔ a = b := fun a b => ⟨fun h => List.nodup_iff_injective_get.mp hn h, fun h => by rw [h]⟩
  by_cases h : i < j
  · simp only [if_pos h, hget]
    have e : ∀ k : Fin factors.length, v (factors.get i ++ " * " ++ factors.get j) * ((if i = k then τ (factors.get j) else 0) + if j = k then τ (factors.get i) else 0) * x (factors.get k) =
        (if i = k then v (factors.get i ++ " * " ++ factors.get j) * τ (factors.get j) * x (factors.get k) else 0) + (if j = k then v (factors.get i ++ " * " ++ factors.get j) * τ (factors.get i) * x (factors.get k) else 0) := by
      intro k
      split_ifs <;> ring
    rw [Finset.sum_congr rfl (fun k _ => e k), Finset.sum_add_distrib, Finset.sum_ite_eq, Finset.sum_ite_eq, if_pos (Finset.mem_univ _), if_pos (Finset.mem_univ _)]
    ring
  · simp only [if_neg h, zero_mul, Finset.sum_const_zero]

theorem interactionTerms_add (hn : factors.Nodup) (x : String → ℝ) : interactionTerms factors (fun g => x g + τ g) v = interactionTerms factors x v + (factors.map (fun g => crossSlope factors v τ g * x g)).sum + interactionTerms factors τ v := by
  rw [crossSlope_sum hn]
  unfold interactionTerms
  rw [← Finset.sum_add_distrib, ← Finset.sum_add_distrib]
  refine Finset.sum_congr rfl (fun i _ => ?_)
  rw [← Finset.sum_add_distrib, ← Finset.sum_add_distrib]
  refine Finset.sum_congr rfl (fun j _ => ?_)
  split_ifs <;> ring

theorem crossSlope_self (hn : factors.Nodup) : (factors.map (fun g => crossSlope factors v τ g * τ g)).sum = 2 * interactionTerms factors τ v := by
  rw [crossSlope_sum hn]
  unfold interactionTerms
  rw [Finset.mul_sum]
  refine Finset.sum_congr rfl (fun i _ => ?_)
  rw [Finset.mul_sum]
  refine Finset.sum_congr rfl (fun j _ => ?_)
  split_ifs <;> ring

/-- Names that the proofs tell apart. -/
structure StepNames (factors : List String) : Prop where
  nodup : factors.Nodup
  constant : "constant" ∉ factors
  phi : "phi" ∉ factors
  tfp : "tfp" ∉ factors
  sigma : ∀ g, "sigma_" ++ g ∉ factors ∨ g ∉ factors
  square : ∀ g, g ++ " ** 2" ∉ factors
  product : ∀ g h, g ++ " * " ++ h ∉ factors

theorem stepNames {m : ModelDict ℝ} (hg : GoodNames m) : StepNames (allFactors m) where
  nodup := hg.distinct
  constant := fun h => (hg.reserved _ h).1 rfl
  phi := fun h => (hg.reserved _ h).2.1 rfl
  tfp := fun h => (hg.reserved _ h).2.2.1 rfl
  sigma := fun g => by
    by_cases h : g ∈ allFactors m
    · exact Or.inl (fun h' => (hg.reserved _ h').2.2.2 g h rfl)
    · exact Or.inr h
  square := fun g h => (hg.chars _ h).2 (by rw [String.toList_append]; exact List.mem_append_right _ (by decide))
  product := fun g g' h => (hg.chars _ h).2 (by rw [String.toList_append, String.toList_append]; exact List.mem_append_left _ (List.mem_append_right _ (by decide)))

theorem movedStep_value (hs : StepNames factors) {name f : String} (hf : f ∈ factors)
    (hname : name = "linear" ∨ name = "linear_and_squares" ∨ name = "translog" ∨ name = "constant" ∨ (name = "log_ces" ∧ (∀ g ∈ factors, 0 < v g) ∧ v "phi" ≠ 0) ∨ (name = "log_ces_general" ∧ (∀ g ∈ factors, 0 < v g) ∧ v "tfp" ≠ 0))
    (δ : ℝ) (x : String → ℝ) :
    nextValue factors (fun g => x g + τ g) (movedStep factors v τ name f δ).1 f (.builtin name) = nextValue factors x v f (.builtin name) + (movedStep factors v τ name f δ).2 := by
  have hne : ∀ g ∈ factors, g ≠ "constant" := fun g hg h => hs.constant (h ▸ hg)
  have hl : factors ≠ [] := List.ne_nil_of_mem hf
  have hsq : ∀ g, g ++ " ** 2" ≠ "constant" := fun g h => by
    have h := congrArg String.toList h
    have hm : ' ' ∈ (g ++ " ** 2").toList := by rw [String.toList_append]; exact List.mem_append_right _ (by decide)
    rw [h] at hm
    revert hm
    decide
  have hpr : ∀ g g', g ++ " * " ++ g' ≠ "constant" := fun g g' h => by
    have h := congrArg String.toList h
    have hm : ' ' ∈ (g ++ " * " ++ g').toList := by rw [String.toList_append, String.toList_append]; exact List.mem_append_left _ (List.mem_append_right _ (by decide))
    rw [h] at hm
    revert hm
    decide
  have d1 : ("linear_and_squares" : String) ≠ "linear" := by decide
  have d2 : ("translog" : String) ≠ "linear" := by decide
  have d3 : ("translog" : String) ≠ "linear_and_squares" := by decide
  have d4 : ("log_ces" : String) ≠ "linear" := by decide
  have d5 : ("log_ces" : String) ≠ "linear_and_squares" := by decide
  have d6 : ("log_ces" : String) ≠ "translog" := by decide
  have d7 : ("log_ces_general" : String) ≠ "linear" := by decide
  have d8 : ("log_ces_general" : String) ≠ "linear_and_squares" := by decide
  have d9 : ("log_ces_general" : String) ≠ "translog" := by decide
  have d10 : ("log_ces_general" : String) ≠ "log_ces" := by decide
  have d11 : ("constant" : String) ≠ "linear" := by decide
  have d12 : ("constant" : String) ≠ "linear_and_squares" := by decide
  have d13 : ("constant" : String) ≠ "translog" := by decide
  have d14 : ("constant" : String) ≠ "log_ces" := by decide
  have d15 : ("constant" : String) ≠ "log_ces_general" := by decide
  have d16 : ("linear_and_squares" : String) ≠ "translog" := by decide
  have d17 : ("linear_and_squares" : String) ≠ "log_ces" := by decide
  have d18 : ("linear_and_squares" : String) ≠ "constant" := by decide
  have d19 : ("linear_and_squares" : String) ≠ "robust_translog" := by decide
  have d20 : ("log_ces_general" : String) ≠ "constant" := by decide
  have d21 : ("log_ces_general" : String) ≠ "robust_translog" := by decide
  rcases hname with rfl | rfl | rfl | rfl | ⟨rfl, hv, hphi⟩ | ⟨rfl, hv, htfp⟩
  · have e : ∀ y w : String → ℝ, nextValue factors y w f (.builtin "linear") = linearValue factors y w := fun y w => rfl
    rw [e, e, show movedStep factors v τ "linear" f δ = _ from if_pos rfl]
    unfold linearValue
    dsimp only
    rw [if_pos rfl, linearTerms_add, linearTerms_congr (v := v) (x := x) (x' := x) (fun g hg => if_neg (hne g hg)) (fun _ _ => rfl), linearTerms_congr (v := v) (x := τ) (x' := τ) (fun g hg => if_neg (hne g hg)) (fun _ _ => rfl)]
    ring
  · have e : ∀ y w : String → ℝ, nextValue factors y w f (.builtin "linear_and_squares") = linearAndSquaresValue factors y w := fun y w => rfl
    rw [e, e, show movedStep factors v τ "linear_and_squares" f δ = _ from (if_neg d1).trans (if_pos rfl)]
    unfold linearAndSquaresValue
    dsimp only
    rw [if_pos rfl]
    have h1 : ∀ y : String → ℝ, linearTerms factors y (fun p => if p = "constant" then v p - linearTerms factors τ v + squareTerms factors τ v + δ else if p ∈ factors then v p - 2 * v (p ++ " ** 2") * τ p else v p) =
        linearTerms factors y v - (factors.map (fun g => 2 * v (g ++ " ** 2") * τ g * y g)).sum := by
      intro y
      rw [eq_sub_iff_add_eq]
      unfold linearTerms
      rw [← map_sum_add]
      congr 1
      refine List.map_congr_left (fun g hg => ?_)
      beta_reduce
      rw [if_neg (hne g hg), if_pos hg]
      ring
    have h2 : ∀ y : String → ℝ, squareTerms factors y (fun p => if p = "constant" then v p - linearTerms factors τ v + squareTerms factors τ v + δ else if p ∈ factors then v p - 2 * v (p ++ " ** 2") * τ p else v p) = squareTerms factors y v := by
      intro y
      unfold squareTerms
      congr 1
      refine List.map_congr_left (fun g hg => ?_)
      beta_reduce
      rw [if_neg (hsq g), if_neg (hs.square g)]
    have h3 : (factors.map (fun g => 2 * v (g ++ " ** 2") * τ g * τ g)).sum = 2 * squareTerms factors τ v := by
      unfold squareTerms
      rw [mul_comm, ← map_sum_mul]
      congr 1
      exact List.map_congr_left (fun g _ => by ring)
    rw [linearTerms_add, h1, h1, h2, squareTerms_add, h3]
    ring
  · have e : ∀ y w : String → ℝ, nextValue factors y w f (.builtin "translog") = translogValue factors y w := fun y w => rfl
    rw [e, e, show movedStep factors v τ "translog" f δ = _ from (if_neg d2).trans ((if_neg d3).trans (if_pos rfl))]
    unfold translogValue
    dsimp only
    rw [if_pos rfl]
    set v' : String → ℝ := fun p => if p = "constant" then v p - linearTerms factors τ v + squareTerms factors τ v + interactionTerms factors τ v + δ
      else if p ∈ factors then v p - 2 * v (p ++ " ** 2") * τ p - crossSlope factors v τ p else v p with hv'
    have h1 : ∀ y : String → ℝ, linearTerms factors y v' = linearTerms factors y v - (factors.map (fun g => 2 * v (g ++ " ** 2") * τ g * y g)).sum - (factors.map (fun g => crossSlope factors v τ g * y g)).sum := by
      intro y
      rw [eq_sub_iff_add_eq, eq_sub_iff_add_eq]
      unfold linearTerms
      rw [← map_sum_add, ← map_sum_add]
      congr 1
      refine List.map_congr_left (fun g hg => ?_)
      rw [hv']
      dsimp only
      rw [if_neg (hne g hg), if_pos hg]
      ring
    have h2 : ∀ y : String → ℝ, squareTerms factors y v' = squareTerms factors y v := by
      intro y
      unfold squareTerms
      congr 1
      refine List.map_congr_left (fun g hg => ?_)
      rw [hv']
      dsimp only
      rw [if_neg (hsq g), if_neg (hs.square g)]
    have h4 : ∀ y : String → ℝ, interactionTerms factors y v' = interactionTerms factors y v := by
      intro y
      unfold interactionTerms
      refine Finset.sum_congr rfl (fun i _ => Finset.sum_congr rfl (fun j _ => ?_))
      rw [hv']
      dsimp only
      rw [if_neg (hpr _ _), if_neg (hs.product _ _)]
    have h3 : (factors.map (fun g => 2 * v (g ++ " ** 2") * τ g * τ g)).sum = 2 * squareTerms factors τ v := by
      unfold squareTerms
      rw [mul_comm, ← map_sum_mul]
      congr 1
      exact List.map_congr_left (fun g _ => by ring)
    rw [linearTerms_add, h1, h1, h2, h4, squareTerms_add, interactionTerms_add hs.nodup, h3, crossSlope_self hs.nodup]
    ring
  · have e : ∀ y w : String → ℝ, nextValue factors y w f (.builtin "constant") = y f := fun y w => rfl
    rw [e, e, show movedStep factors v τ "constant" f δ = _ from (if_neg d11).trans ((if_neg d12).trans ((if_neg d13).trans ((if_neg d14).trans (if_neg d15))))]
  · have e : ∀ y w : String → ℝ, nextValue factors y w f (.builtin "log_ces") = logCesValue factors y w := fun y w => rfl
    rw [e, e, show movedStep factors v τ "log_ces" f δ = _ from (if_neg d4).trans ((if_neg d5).trans ((if_neg d6).trans (if_pos rfl)))]
    unfold logCesValue
    dsimp only
    rw [if_neg hs.phi]
    have hZ : 0 < (factors.map (fun g => v g * Real.exp (v "phi" * -τ g))).sum := list_sum_pos hl (fun g hg => mul_pos (hv g hg) (Real.exp_pos _))
    have hS : 0 < (factors.map (fun g => v g * Real.exp (v "phi" * x g))).sum := list_sum_pos hl (fun g hg => mul_pos (hv g hg) (Real.exp_pos _))
    generalize (factors.map (fun g => v g * Real.exp (v "phi" * -τ g))).sum = Z at hZ ⊢
    have h1 : (factors.map (fun g => (if g ∈ factors then v g * Real.exp (v "phi" * -τ g) / Z else v g) * Real.exp (v "phi" * (x g + τ g)))).sum = (factors.map (fun g => v g * Real.exp (v "phi" * x g))).sum * Z⁻¹ := by
      rw [← map_sum_mul]
      congr 1
      refine List.map_congr_left (fun g hg => ?_)
      rw [if_pos hg, div_eq_mul_inv, mul_right_comm, mul_assoc (v g), ← Real.exp_add]
      congr 3
      ring
    rw [h1, Real.log_mul hS.ne' (inv_ne_zero hZ.ne'), Real.log_inv, add_div]
  · have e : ∀ y w : String → ℝ, nextValue factors y w f (.builtin "log_ces_general") = logCesGeneralValue factors y w := fun y w => rfl
    rw [e, e, show movedStep factors v τ "log_ces_general" f δ = _ from (if_neg d7).trans ((if_neg d8).trans ((if_neg d9).trans ((if_neg d10).trans (if_pos rfl))))]
    unfold logCesGeneralValue
    dsimp only
    rw [if_neg hs.tfp]
    have hS : 0 < (factors.map (fun g => v g * Real.exp (v ("sigma_" ++ g) * x g))).sum := list_sum_pos hl (fun g hg => mul_pos (hv g hg) (Real.exp_pos _))
    have h1 : (factors.map (fun g => (if g ∈ factors then v g * Real.exp (v ("sigma_" ++ g) * -τ g) * Real.exp (δ / v "tfp") else v g) *
        Real.exp ((if "sigma_" ++ g ∈ factors then v ("sigma_" ++ g) * Real.exp (v ("sigma_" ++ ("sigma_" ++ g)) * -τ ("sigma_" ++ g)) * Real.exp (δ / v "tfp") else v ("sigma_" ++ g)) * (x g + τ g)))).sum =
        (factors.map (fun g => v g * Real.exp (v ("sigma_" ++ g) * x g))).sum * Real.exp (δ / v "tfp") := by
      rw [← map_sum_mul]
      congr 1
      refine List.map_congr_left (fun g hg => ?_)
      rw [if_pos hg, if_neg ((hs.sigma g).resolve_right (fun h => h hg)), mul_right_comm, mul_assoc (v g), ← Real.exp_add]
      congr 3
      ring
    rw [h1, Real.log_mul hS.ne' (Real.exp_pos _).ne', Real.log_exp, mul_add, mul_div_cancel₀ _ htfp]

end Skill
