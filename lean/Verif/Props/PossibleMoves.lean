import Verif.Props.MovedLocations
import Verif.Lemmas.Shift3
/- C146: which changes of the locations of latent factors are possible. -/
namespace Skill
open Matrix Spec

section
variable (m : ModelDict ℝ) (val : Loc → ℝ) (δ : Nat → String → ℝ)

/-- The name of the transition function of factor `f`. -/
def stepName (f : String) : String :=
  match m.factors.lookup f with
  | some spec => match spec.transition with
    | .named name => name
    | .custom _ _ => "constant"
  | none => "constant"

open Classical in
/-- The moves of all factors. -/
noncomputable def movesOf : Nat → String → ℝ
  | 0 => fun f => if f ∈ latents m then δ 0 f else 0
  | t + 1 => fun f => if f ∈ latents m then (movedStep (allFactors m) (fun p => val ⟨.transition, t, f, p⟩) (movesOf t) (stepName m f) f (δ (t + 1) f)).2 else 0

open Classical in
/-- The values of the parameters after the moves. -/
noncomputable def movedValues (l : Loc) : ℝ :=
  match l.cat with
  | .initialStates => val l + movesOf m val δ 0 l.name2
  | .controls => if l.name2 = "constant" then val l - ((latents m).map (fun f => if Loads m l.period l.name1 f then val ⟨.loadings, l.period, l.name1, f⟩ * movesOf m val δ l.period f else 0)).sum else val l
  | .transition => (movedStep (allFactors m) (fun p => val ⟨.transition, l.period, l.name1, p⟩) (movesOf m val δ l.period) (stepName m l.name1) l.name1 (δ (l.period + 1) l.name1)).1 l.name2
  | _ => val l

variable {m val δ}

theorem stepName_eq (hg : GoodNames m) {f name : String} (h : HasTransition m f name) : stepName m f = name := by
  obtain ⟨spec, hmem, hs⟩ := h
  unfold stepName
  rw [lookup_of_mem hg.keys.factors hmem]
  dsimp only
  rw [hs]

theorem transitionOf_eq (hg : GoodNames m) (custom : String → CustomFn) {f name : String} (h : HasTransition m f name) : transitionOf custom m f = .builtin name := by
  obtain ⟨spec, hmem, hs⟩ := h
  unfold transitionOf
  rw [lookup_of_mem hg.keys.factors hmem, Option.map_some, Option.getD_some, hs]
  rfl

theorem factorNext_plain (hna : m.anchoring = none) (custom : String → CustomFn) (v : Loc → ℝ) (cov : Covariates) (t : ℕ) (s : String → ℝ) (f : String) :
    factorNext custom m v cov t s f = nextValue (allFactors m) (fun g => if g ∈ latents m then s g else cov.factor t g) (fun name => v ⟨.transition, t, f, name⟩) f (transitionOf custom m f) := by
  have hout : ∀ f, outcome m f = none := fun f => by
    unfold outcome
    rw [hna]
    rfl
  have hs : ∀ t f, anchorScale m v t f = 1 := fun t f => by simp [anchorScale, hout]
  have hc : ∀ t f, anchorConstant m v t f = 0 := fun t f => by simp [anchorConstant, hout]
  unfold factorNext anchoredValue
  simp only [hs, hc, zero_add, one_mul, sub_zero, div_one]

end

section
variable {m : ModelDict ℝ} {val : Loc → ℝ}

theorem ces_fst {factors : List String} {v τ : String → ℝ} {f : String} {δ : ℝ} (p : String) :
    (movedStep factors v τ "log_ces" f δ).1 p = if p ∈ factors then v p * Real.exp (v "phi" * -τ p) / (factors.map (fun g => v g * Real.exp (v "phi" * -τ g))).sum else v p := rfl

theorem ces_general_fst {factors : List String} {v τ : String → ℝ} {f : String} {δ : ℝ} (p : String) :
    (movedStep factors v τ "log_ces_general" f δ).1 p = if p ∈ factors then v p * Real.exp (v ("sigma_" ++ p) * -τ p) * Real.exp (δ / v "tfp") else v p := rfl

theorem usable_of_movable (custom : String → CustomFn) (h : MovableTransitions m val) : ∀ t, IsPeriod m (t + 1) → ∀ fs ∈ m.factors,
    TransFn.Usable (allFactors m) (fun name => val ⟨.transition, t, fs.1, name⟩) (transFnOf (custom fs.1) fs.2.transition) := by
  intro t ht fs hfs
  obtain ⟨name, hn, hcase⟩ := h t ht fs.1 fs.2 hfs
  rw [hn]
  show (builtinParamNames name).isSome ∧ (name = "log_ces" ∨ name = "log_ces_general" → ∀ f ∈ allFactors m, 0 ≤ val ⟨.transition, t, fs.1, f⟩)
  rcases hcase with rfl | rfl | rfl | rfl | ⟨rfl, hv, _⟩ | ⟨rfl, hv, _⟩
  · exact ⟨rfl, fun h => by rcases h with h | h <;> exact absurd h (by decide)⟩
  · exact ⟨rfl, fun h => by rcases h with h | h <;> exact absurd h (by decide)⟩
  · exact ⟨rfl, fun h => by rcases h with h | h <;> exact absurd h (by decide)⟩
  · exact ⟨rfl, fun h => by rcases h with h | h <;> exact absurd h (by decide)⟩
  · exact ⟨rfl, fun _ g hg => (hv g hg).le⟩
  · exact ⟨rfl, fun _ g hg => (hv g hg).le⟩

/-- **C146**: in a model without anchoring, with the built-in transition functions other than robust_translog, the locations of all factors in the first period can be moved as one likes, by any amounts, and so can the locations
of factors with the functions linear, linear_and_squares, translog and log_ces_general in all later periods. There are parameters for it that are allowed (weights of CES functions are positive, those of log_ces add up to one). -/
theorem C146_possible_moves (hg : GoodNames m) (hna : m.anchoring = none) (custom : String → CustomFn) (hmov : MovableTransitions m val) (δ : Nat → String → ℝ) : ∃ (τ : Nat → String → ℝ) (val' : Loc → ℝ),
    (∀ f, IsLatent m f → τ 0 f = δ 0 f) ∧
    (∀ t f, (HasTransition m f "linear" ∨ HasTransition m f "linear_and_squares" ∨ HasTransition m f "translog" ∨ HasTransition m f "log_ces_general") → τ (t + 1) f = δ (t + 1) f) ∧
    MovedLocations custom m τ val val' ∧ MovableTransitions m val' ∧ CesWeightsSumToOne m val' := by
  have hlat : ∀ {f : String} {name : String}, HasTransition m f name → f ∈ latents m := fun {f name} h => by
    obtain ⟨spec, hmem, _⟩ := h
    exact List.mem_map.mpr ⟨_, hmem, rfl⟩
  have hall : ∀ {f : String}, f ∈ latents m → f ∈ allFactors m := fun h => List.mem_append_left _ h
  refine ⟨movesOf m val δ, movedValues m val δ, fun f hf => if_pos ((mem_latents_iff m f).mpr hf), fun t f hf => ?_, ⟨?_, ?_, ?_, ?_⟩, ?_, ?_⟩
  · have h1 : ∀ {name : String}, HasTransition m f name → movesOf m val δ (t + 1) f = (movedStep (allFactors m) (fun p => val ⟨.transition, t, f, p⟩) (movesOf m val δ t) name f (δ (t + 1) f)).2 := fun {name} h => by
      rw [show movesOf m val δ (t + 1) f = _ from if_pos (hlat h), stepName_eq hg h]
    rcases hf with h | h | h | h <;> rw [h1 h] <;> rfl
  · intro e f hf
    rfl
  · intro t v _
    rfl
  · intro t ht cov s f hf
    have hfl := (mem_latents_iff m f).mpr hf
    obtain ⟨spec, hmem⟩ := hf
    obtain ⟨name, hn, hcase⟩ := hmov t ht f spec hmem
    have hT : HasTransition m f name := ⟨spec, hmem, hn⟩
    rw [factorNext_plain hna, factorNext_plain hna, transitionOf_eq hg custom hT]
    have hx : (fun g => if g ∈ latents m then s g + movesOf m val δ t g else cov.factor t g) = fun g => (if g ∈ latents m then s g else cov.factor t g) + movesOf m val δ t g := by
      funext g
      split_ifs with h
      · rfl
      · have : movesOf m val δ t g = 0 := by
          cases t with
          | zero => exact if_neg h
          | succ t => exact if_neg h
        rw [this, add_zero]
    rw [hx]
    have key := movedStep_value (v := fun p => val ⟨.transition, t, f, p⟩) (τ := movesOf m val δ t) (stepNames hg) (hall hfl) hcase (δ (t + 1) f) (fun g => if g ∈ latents m then s g else cov.factor t g)
    rw [show movesOf m val δ (t + 1) f = _ from if_pos hfl, stepName_eq hg hT, ← key]
    congr 1
    funext p
    show (movedStep _ _ _ (stepName m f) f _).1 p = _
    rw [stepName_eq hg hT]
  · rintro ⟨cat, t, n1, n2⟩ h1 h2 h3
    cases cat with
    | initialStates => exact absurd rfl h1
    | transition => exact absurd rfl h2
    | controls => exact if_neg (fun h => h3 ⟨rfl, h⟩)
    | _ => rfl
  · intro t ht f spec hmem
    obtain ⟨name, hn, hcase⟩ := hmov t ht f spec hmem
    refine ⟨name, hn, ?_⟩
    have hT : HasTransition m f name := ⟨spec, hmem, hn⟩
    have hv : ∀ p, movedValues m val δ ⟨.transition, t, f, p⟩ = (movedStep (allFactors m) (fun p => val ⟨.transition, t, f, p⟩) (movesOf m val δ t) name f (δ (t + 1) f)).1 p := fun p => by
      rw [← stepName_eq hg hT]
      rfl
    have hl : allFactors m ≠ [] := List.ne_nil_of_mem (hall (hlat hT))
    have hsn := stepNames hg
    rcases hcase with rfl | rfl | rfl | rfl | ⟨rfl, hpos, hphi⟩ | ⟨rfl, hpos, htfp⟩
    · exact Or.inl rfl
    · exact Or.inr (Or.inl rfl)
    · exact Or.inr (Or.inr (Or.inl rfl))
    · exact Or.inr (Or.inr (Or.inr (Or.inl rfl)))
    · refine Or.inr (Or.inr (Or.inr (Or.inr (Or.inl ⟨rfl, fun g hgm => ?_, ?_⟩))))
      · rw [hv, ces_fst, if_pos hgm]
        exact div_pos (mul_pos (hpos g hgm) (Real.exp_pos _)) (list_sum_pos hl (fun g hg => mul_pos (hpos g hg) (Real.exp_pos _)))
      · rw [hv, ces_fst, if_neg hsn.phi]
        exact hphi
    · refine Or.inr (Or.inr (Or.inr (Or.inr (Or.inr ⟨rfl, fun g hgm => ?_, ?_⟩))))
      · rw [hv, ces_general_fst, if_pos hgm]
        exact mul_pos (mul_pos (hpos g hgm) (Real.exp_pos _)) (Real.exp_pos _)
      · rw [hv, ces_general_fst, if_neg hsn.tfp]
        exact htfp
  · intro t ht f hT
    have hv : ∀ p, movedValues m val δ ⟨.transition, t, f, p⟩ = (movedStep (allFactors m) (fun p => val ⟨.transition, t, f, p⟩) (movesOf m val δ t) "log_ces" f (δ (t + 1) f)).1 p := fun p => by
      rw [← stepName_eq hg hT]
      rfl
    have hl : allFactors m ≠ [] := List.ne_nil_of_mem (hall (hlat hT))
    obtain ⟨spec, hmem, hspec⟩ := id hT
    obtain ⟨name, hn, hcase⟩ := hmov t ht f spec hmem
    obtain rfl : name = "log_ces" := by
      rw [hspec] at hn
      exact (TransSpec.named.inj hn).symm
    have hpos : ∀ g ∈ allFactors m, 0 < val ⟨.transition, t, f, g⟩ := by
      rcases hcase with h | h | h | h | h | h
      · exact absurd h (by decide)
      · exact absurd h (by decide)
      · exact absurd h (by decide)
      · exact absurd h (by decide)
      · exact h.2.1
      · exact absurd h.1 (by decide)
    have hZ := list_sum_pos (F := fun g => val ⟨.transition, t, f, g⟩ * Real.exp (val ⟨.transition, t, f, "phi"⟩ * -movesOf m val δ t g)) hl (fun g hg => mul_pos (hpos g hg) (Real.exp_pos _))
    have e : (allFactors m).map (fun g => movedValues m val δ ⟨.transition, t, f, g⟩) = (allFactors m).map (fun g => (val ⟨.transition, t, f, g⟩ * Real.exp (val ⟨.transition, t, f, "phi"⟩ * -movesOf m val δ t g)) *
        ((allFactors m).map (fun g => val ⟨.transition, t, f, g⟩ * Real.exp (val ⟨.transition, t, f, "phi"⟩ * -movesOf m val δ t g))).sum⁻¹) :=
      List.map_congr_left (fun g hgm => by rw [hv, ces_fst, if_pos hgm, div_eq_mul_inv])
    rw [e, map_sum_mul]
    exact mul_inv_cancel₀ hZ.ne'

/-- **C146**: therefore the likelihood function does not identify these locations: for all moves of the factors in the first period (and in later periods, where they are possible) there are allowed parameters with moved initial
means and with exactly the same log likelihood, for all datasets. A model needs one restriction for each of these locations, such as a normalized intercept. -/
theorem C146_not_identified (hg : GoodNames m) (hna : m.anchoring = none) (hc : CleanAnchoring m) (ho : SameOrder m) (hclash : NoNameClash m) (hall : ∀ t, IsPeriod m t → ∃ v, IsUpdate m t v)
    (hkappa : ∀ o x, m.estimationOptions = some o → o.sigmaPointsScale = some x → 0 ≤ x) (custom : String → CustomFn) (hmov : MovableTransitions m val) (δ : Nat → String → ℝ) :
    ∃ (τ : Nat → String → ℝ) (val' : Loc → ℝ), (∀ e f, IsLatent m f → val' ⟨.initialStates, 0, Spec.mixtureName e, f⟩ = val ⟨.initialStates, 0, Spec.mixtureName e, f⟩ + δ 0 f) ∧ MovedLocations custom m τ val val' ∧
      (∀ t f, (HasTransition m f "linear" ∨ HasTransition m f "linear_and_squares" ∨ HasTransition m f "translog" ∨ HasTransition m f "log_ces_general") → τ (t + 1) f = δ (t + 1) f) ∧
      MovableTransitions m val' ∧ CesWeightsSumToOne m val' ∧
      ∀ (df : LongData ℝ) (ids pers : List Int), IndexOk df → NoUnusedPeriods df → IdsOf df ids → PeriodsOf df pers → ∀ inputs, getMaximizationInputs m df = .ok inputs →
        ∀ (qr : QR) (nan : ℝ) (params params' : List (Loc × ℝ)), (params.map Prod.fst).Nodup → (params'.map Prod.fst).Nodup → (∀ l x, (l, x) ∈ params → x = val l) → (∀ l x, (l, x) ∈ params' → x = val' l) →
          ∀ out out', inputs.loglike qr custom nan m params = .ok out → inputs.loglike qr custom nan m params' = .ok out' → out' = out := by
  obtain ⟨τ, val', h0, h1, hmv, hmov', hsum⟩ := C146_possible_moves hg hna custom hmov δ
  refine ⟨τ, val', fun e f hf => by rw [hmv.means e f hf, h0 f hf], hmv, h1, hmov', hsum, ?_⟩
  intro df ids pers hi hnu hids hpers inputs hin qr nan params params' hn hn' hval hval' out out' h h'
  exact C146_locations hg hc ho hclash hall hkappa hi hnu hids hpers hin hn hn' hval hval' hmv (usable_of_movable custom hmov) (usable_of_movable custom hmov') h h'

end
end Skill
