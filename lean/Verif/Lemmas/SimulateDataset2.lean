import Verif.Lemmas.SimulateDataset
import Verif.Props.SimulationLaw
/-
simulate_dataset in terms of labels: states and measurements for given noise.
-/
namespace Skill
open Matrix MeasureTheory ProbabilityTheory Spec

open Classical in
/-- The effects of the policies, for given random numbers. -/
noncomputable def effectWith (m : ModelDict ℝ) (policies : List Policy) (pol : Nat → ℝ) (t : Nat) (f : String) : ℝ := if IsPeriod m (t + 1) then policyEffect policies pol t f else 0

/-- The latent factors for given start values and shocks. -/
noncomputable def statesWith (custom : String → CustomFn) (m : ModelDict ℝ) (val : Loc → ℝ) (cov : Covariates) (policies : List Policy) (start : String → ℝ) (shock : Nat → String → ℝ) (pol : Nat → ℝ) : Nat → String → ℝ
  | 0 => fun f => start f + effectWith m policies pol 0 f
  | t + 1 => fun f => factorNext custom m val cov t (statesWith custom m val cov policies start shock pol t) f + shock t f + effectWith m policies pol (t + 1) f

/-- All cells for given start values, shocks and measurement errors. -/
noncomputable def cellsWith (custom : String → CustomFn) (m : ModelDict ℝ) (val : Loc → ℝ) (cov : Covariates) (policies : List Policy) (start : String → ℝ) (shock error : Nat → String → ℝ) (pol : Nat → ℝ) : Cell m → ℝ
  | .inl c => statesWith custom m val cov policies start shock pol c.1.1 c.1.2
  | .inr c => measurementWith m val cov (statesWith custom m val cov policies start shock pol) (error c.1.1 c.1.2) c.1.1 c.1.2

theorem simulatedStates_with (custom : String → CustomFn) (m : ModelDict ℝ) (val : Loc → ℝ) (cov : Covariates) (policies : List Policy) (e : Nat) (z : SimulationNoise → ℝ) (t : Nat) :
    simulatedStates custom m val cov policies e z t = statesWith custom m val cov policies (startState m val e (fun j => z (.model j))) (fun t f => val ⟨.shockSds, t, f, "-"⟩ * z (.model (.shock t f)))
      (fun k => z (.policy k)) t := by
  induction t with
  | zero => rfl
  | succ t ih => rw [simulatedStates, statesWith, ih]; rfl

theorem modelCells_with (custom : String → CustomFn) (m : ModelDict ℝ) (val : Loc → ℝ) (cov : Covariates) (policies : List Policy) (e : Nat) (z : SimulationNoise → ℝ) :
    modelCells custom m val cov policies e z = cellsWith custom m val cov policies (startState m val e (fun j => z (.model j))) (fun t f => val ⟨.shockSds, t, f, "-"⟩ * z (.model (.shock t f)))
      (fun t v => val ⟨.measSds, t, v, "-"⟩ * z (.model (.error t v))) (fun k => z (.policy k)) := by
  funext c
  have h := funext (simulatedStates_with custom m val cov policies e z)
  rcases c with c | c
  · simp only [modelCells, cellsWith, h]
  · simp only [modelCells, cellsWith, h]

theorem policyEffect_congr {policies : List Policy} {p p' : Nat → ℝ} (h : ∀ k < policies.length, p k = p' k) (t : Nat) (f : String) : policyEffect policies p t f = policyEffect policies p' t f := by
  unfold policyEffect
  congr 1
  refine List.map_congr_left (fun a ha => ?_)
  rw [h a.2 (by have := List.snd_lt_of_mem_zipIdx (List.mem_of_mem_filter ha); omega)]

theorem factorNext_congr (custom : String → CustomFn) (m : ModelDict ℝ) (val : Loc → ℝ) (cov : Covariates) (t : Nat) {s s' : String → ℝ} (h : ∀ f ∈ latents m, s f = s' f) (f : String) :
    factorNext custom m val cov t s f = factorNext custom m val cov t s' f := by
  unfold factorNext
  congr 3
  funext g
  split_ifs with hg
  · rw [h g hg]
  · rfl

section
variable (custom : String → CustomFn) {m : ModelDict ℝ} (val : Loc → ℝ) (cov : Covariates) {policies : List Policy}

theorem statesWith_congr {start start' : String → ℝ} {shock shock' : Nat → String → ℝ} {pol pol' : Nat → ℝ} (h1 : ∀ f ∈ latents m, start f = start' f)
    (h2 : ∀ t, IsPeriod m (t + 1) → ∀ f ∈ latents m, shock t f = shock' t f) (h4 : ∀ k < policies.length, pol k = pol' k) {t : Nat} (ht : IsPeriod m t) {f : String} (hf : f ∈ latents m) :
    statesWith custom m val cov policies start shock pol t f = statesWith custom m val cov policies start' shock' pol' t f := by
  have he : ∀ t f, effectWith m policies pol t f = effectWith m policies pol' t f := by
    intro t f
    unfold effectWith
    rw [policyEffect_congr h4]
  induction t generalizing f with
  | zero => simp only [statesWith, h1 f hf, he]
  | succ t ih =>
    have ht' : IsPeriod m t := by
      obtain ⟨N, hN, hlt⟩ := ht
      exact ⟨N, hN, by omega⟩
    simp only [statesWith, he, h2 t ht f hf]
    rw [factorNext_congr custom m val cov t (fun g hg => ih ht' hg)]

theorem measurementWith_congr {states states' : Nat → String → ℝ} {t : Nat} (h : ∀ f ∈ latents m, states t f = states' t f) (error : ℝ) (v : String) :
    measurementWith m val cov states error t v = measurementWith m val cov states' error t v := by
  unfold measurementWith
  congr 2
  congr 1
  refine List.map_congr_left (fun f hf => ?_)
  rw [h f hf]

theorem cellsWith_congr (hup : ∀ t v, IsUpdate m t v → IsPeriod m t) {start start' : String → ℝ} {shock error shock' error' : Nat → String → ℝ} {pol pol' : Nat → ℝ} (h1 : ∀ f ∈ latents m, start f = start' f)
    (h2 : ∀ t, IsPeriod m (t + 1) → ∀ f ∈ latents m, shock t f = shock' t f) (h3 : ∀ t v, IsUpdate m t v → error t v = error' t v) (h4 : ∀ k < policies.length, pol k = pol' k) :
    cellsWith custom m val cov policies start shock error pol = cellsWith custom m val cov policies start' shock' error' pol' := by
  funext c
  rcases c with ⟨⟨t, f⟩, ht, hf⟩ | ⟨⟨t, v⟩, h⟩
  · exact statesWith_congr custom val cov h1 h2 h4 ht hf
  · simp only [cellsWith]
    rw [h3 t v h]
    exact measurementWith_congr val cov (fun f hf => statesWith_congr custom val cov h1 h2 h4 (hup t v h) hf) _ _

end

/-! ### the simulated states -/

section
variable {m : ModelDict ℝ} {pm : Processed ℝ} (hpm : processModel m = .ok pm) (hg : GoodNames m) (hc : CleanAnchoring m) (custom : String → CustomFn) (val : Loc → ℝ) {n nT : ℕ} (cov : Nat → Covariates)
include hpm hg

theorem transition_name {t : ℕ} (hu : ∀ fs ∈ m.factors, TransFn.Usable (allFactors m) (fun name => val ⟨.transition, t, fs.1, name⟩) (transFnOf (custom fs.1) fs.2.transition))
    {s : Fin (nLat m + nObsd m) → ℝ} {x : String → ℝ} (hx : ∀ g : Fin (nLat m + nObsd m), x (allName m g) = s g) (f : Fin (nLat m)) :
    transitionValues (nLat m) (allFactors m) (transitionFns custom m) (transParams pm val t) s f =
      nextValue (allFactors m) x (fun name => val ⟨.transition, t, latName m f, name⟩) (latName m f) (transitionOf custom m (latName m f)) := by
  have h := transition_label hpm hg.keys custom val t hu x
  unfold transitionValues
  rw [← map_byName hx, h]
  dsimp only
  have hf : m.factors[f.val]? = some m.factors[f.val] := List.getElem?_eq_getElem f.isLt
  have hfn : m.factors[f.val].1 = latName m f := by
    have h1 := latName_get f
    rw [List.getElem?_map, hf] at h1
    exact Option.some.inj h1
  rw [List.getD_eq_getElem?_getD, List.getElem?_map, hf, Option.map_some, Option.getD_some, hfn]
  unfold transitionOf
  have hmem : (latName m f, m.factors[f.val].2) ∈ m.factors := by rw [← hfn]; exact List.getElem_mem _
  rw [lookup_of_mem hg.keys.factors hmem]
  rfl

include hc

theorem unanchored_name {t : ℕ} (ht : t ≤ nT) (hu : ∀ fs ∈ m.factors, TransFn.Usable (allFactors m) (fun name => val ⟨.transition, t, fs.1, name⟩) (transFnOf (custom fs.1) fs.2.transition)) (i : Fin n)
    {x : Fin (nLat m) → ℝ} {s : String → ℝ} (hs : ∀ f : Fin (nLat m), s (latName m f) = x f) (f : Fin (nLat m)) :
    unanchoredTransition (simFixed custom m pm val n nT cov) i t x f = factorNext custom m val (cov i) t s (latName m f) := by
  have h1 : (jaxIndex nT (t : Int)).val = t := jaxIndex_val ht
  have h2 : (jaxIndex (nT + 1) (t : Int)).val = t := jaxIndex_val (by omega)
  have h3 : (jaxIndex (nT + 1) ((t : Int) + 1)).val = t + 1 := by
    have := jaxIndex_val (k := nT + 1) (t := t + 1) (by omega)
    rwa [Nat.cast_add, Nat.cast_one] at this
  unfold unanchoredTransition simFixed labelFixed
  simp only [scalingOf_eq, constantOf_eq, h1, h2, h3, allName_castAdd]
  rw [transition_name hpm hg custom val hu (x := fun g => if g ∈ latents m then anchoredValue m val t g (s g) else (cov i).factor t g)]
  · rfl
  · intro g
    refine Fin.addCases (fun a => ?_) (fun a => ?_) g
    · rw [allName_castAdd, if_pos (latName_mem a), Fin.append_left, hs]
      unfold anchoredValue
      ring
    · rw [allName_natAdd, if_neg (obsName_not_latent hg a), Fin.append_right, (anchor_observed hg hc val t a).1, (anchor_observed hg hc val t a).2]
      ring

/-- The simulated states by name. -/
theorem Spec.StatesFollow.names {root : NormalRoot} {policies : List Policy} {i : Fin n} {nMix : ℕ} {d : Draws nMix (nLat m)} {start : Fin (nLat m) → ℝ} {xs : List (Fin (nLat m) → ℝ)} (hT : pm.dimensions.nPeriods = nT + 2)
    (hu : ∀ t, IsPeriod m (t + 1) → ∀ fs ∈ m.factors, TransFn.Usable (allFactors m) (fun name => val ⟨.transition, t, fs.1, name⟩) (transFnOf (custom fs.1) fs.2.transition))
    (h : StatesFollow root (simFixed custom m pm val n nT cov) (fun f => latName m f) policies i d start xs) {startN : String → ℝ} {shockN : Nat → String → ℝ} {pol : Nat → ℝ}
    (h1 : ∀ f : Fin (nLat m), startN (latName m f) = start f) (h2 : ∀ t ≤ nT, ∀ f : Fin (nLat m), shockN t (latName m f) = transitionNoise root (simFixed custom m pm val n nT cov) t (d.shocks t) f)
    (h3 : ∀ k < policies.length, pol k = d.policies k) {t : ℕ} (ht : t < nT + 2) : ∃ x, xs[t]? = some x ∧ ∀ f : Fin (nLat m), statesWith custom m val (cov i) policies startN shockN pol t (latName m f) = x f := by
  have he : ∀ t f, effectWith m policies pol t f = if t + 1 < nT + 2 then policyEffect policies d.policies t f else 0 := by
    intro t f
    unfold effectWith
    rw [policyEffect_congr h3]
    have hiff := isPeriod_iff hpm (t + 1)
    rw [hT] at hiff
    by_cases hlt : t + 1 < nT + 2
    · rw [if_pos (hiff.mpr hlt), if_pos hlt]
    · rw [if_neg (fun h => hlt (hiff.mp h)), if_neg hlt]
  induction t with
  | zero =>
    obtain ⟨x, hx1, hx2⟩ := h.first
    refine ⟨x, hx1, fun f => ?_⟩
    rw [hx2 f, ← h1 f]
    simp only [statesWith, he]
    rw [if_pos (by omega)]
  | succ t ih =>
    obtain ⟨x, hx1, hx2⟩ := ih (by omega)
    obtain ⟨y, hy⟩ := h.get ht
    refine ⟨y, hy, fun f => ?_⟩
    rw [h.next t x y hx1 hy f, statesWith]
    dsimp only
    rw [he, h2 t (by omega) f, unanchored_name hpm hg hc custom val cov (by omega) (hu t ((isPeriod_iff hpm _).mpr (by omega))) i hx2 f]
    congr 1
    split_ifs <;> first | rfl | omega

end

/-! ### noise vectors -/

/-- Blocks of draws of a simulation: policies, and the blocks of the model. -/
abbrev SimBlock (nT : ℕ) := Option (Block nT)

def simSize {n nC : ℕ} (nT : ℕ) (rows : List (UpdateParams n nC)) (nPol : ℕ) : SimBlock nT → ℕ
  | none => nPol
  | some b => blockSize nT rows b

/-- Positions in the vector of all draws. -/
abbrev SimIndex {n nC : ℕ} (nT : ℕ) (rows : List (UpdateParams n nC)) (nPol : ℕ) := Σ b : SimBlock nT, Fin (simSize nT rows nPol b)

noncomputable def simRoot {nObs nT n nObserved nC : ℕ} {θ : Type} (root : NormalRoot) (fixed : ScanFixed nObs nT n nObserved nC θ) (rows : List (UpdateParams n nC)) (nPol : ℕ) (U : Matrix (Fin n) (Fin n) ℝ) :
    (b : SimBlock nT) → Matrix (Fin (simSize nT rows nPol b)) (Fin (simSize nT rows nPol b)) ℝ
  | none => 1
  | some b => rootBlocks root fixed rows U b

noncomputable def simDiag {nObs nT n nObserved nC : ℕ} {θ : Type} (fixed : ScanFixed nObs nT n nObserved nC θ) (rows : List (UpdateParams n nC)) (nPol : ℕ) (U : Matrix (Fin n) (Fin n) ℝ) :
    (b : SimBlock nT) → Matrix (Fin (simSize nT rows nPol b)) (Fin (simSize nT rows nPol b)) ℝ
  | none => 1
  | some b => diagBlocks fixed rows U b

theorem sim_gram {nObs nT n nObserved nC : ℕ} {θ : Type} {root : NormalRoot} (hroot : ValidRoot root) (fixed : ScanFixed nObs nT n nObserved nC θ) (rows : List (UpdateParams n nC)) (nPol : ℕ) (U : Matrix (Fin n) (Fin n) ℝ)
    (b : SimBlock nT) : simRoot root fixed rows nPol U b * (simRoot root fixed rows nPol U b)ᵀ = simDiag fixed rows nPol U b * (simDiag fixed rows nPol U b)ᵀ := by
  cases b with
  | none => rfl
  | some b => exact blocks_gram hroot fixed rows U b

/-- The draw of the random number generator at each position. -/
def simDraw {n nC nT nPol : ℕ} {rows : List (UpdateParams n nC)} : SimIndex nT rows nPol → Draw
  | ⟨none, k⟩ => .policy k
  | ⟨some (.inl _), f⟩ => .start f
  | ⟨some (.inr (.inl t)), f⟩ => .shock t f
  | ⟨some (.inr (.inr t)), j⟩ => .error t j

/-- The random number of the statistical model at each position. -/
def simLabel (m : ModelDict ℝ) {nT nPol : ℕ} {rows : List (UpdateParams (nLat m) (nCon m))} : SimIndex nT rows nPol → SimulationNoise
  | ⟨none, k⟩ => .policy k
  | ⟨some b, j⟩ => .model (labelIndex m nT rows ⟨b, j⟩)

theorem simDraw_injective {n nC nT nPol : ℕ} {rows : List (UpdateParams n nC)} : Function.Injective (simDraw (nT := nT) (nPol := nPol) (rows := rows)) := by
  rintro ⟨_ | u | t | t, f⟩ ⟨_ | u' | t' | t', f'⟩ h
  all_goals first | (cases h; done) | skip
  · injection h with h1
    exact congrArg _ (Fin.ext h1)
  · injection h with h1
    cases u; cases u'
    exact congrArg _ (Fin.ext h1)
  · injection h with h1 h2
    obtain rfl := Fin.ext h1
    exact congrArg _ (Fin.ext h2)
  · injection h with h1 h2
    obtain rfl := Fin.ext h1
    exact congrArg _ (Fin.ext h2)

theorem simLabel_injective {m : ModelDict ℝ} (hg : GoodNames m) {nT nPol : ℕ} {rows : List (UpdateParams (nLat m) (nCon m))} (hu : (rows.map (fun r => (r.period, r.var))).Nodup) :
    Function.Injective (simLabel m (nT := nT) (nPol := nPol) (rows := rows)) := by
  rintro ⟨_ | b, f⟩ ⟨_ | b', f'⟩ h
  · injection h with h1
    exact congrArg _ (Fin.ext h1)
  · cases h
  · cases h
  · injection h with h1
    have h2 := labelIndex_injective hg hu h1
    injection h2 with h3 h4
    subst h3
    rw [eq_of_heq h4]

section
variable (m : ModelDict ℝ) {nT nPol : ℕ} {rows : List (UpdateParams (nLat m) (nCon m))} (w : SimIndex nT rows nPol → ℝ)

/-- The parts of a noise vector by name. -/
noncomputable def wStart (f : String) : ℝ := if h : (latents m).idxOf f < nLat m then w ⟨some (.inl ()), ⟨_, h⟩⟩ else 0

noncomputable def wShock (t : Nat) (f : String) : ℝ := if h : t < nT + 1 then if h' : (latents m).idxOf f < nLat m then w ⟨some (.inr (.inl ⟨t, h⟩)), ⟨_, h'⟩⟩ else 0 else 0

noncomputable def wError (t : Nat) (v : String) : ℝ :=
  if h : t < nT + 2 then if h' : ((rowsOf rows t).map (fun r => r.var)).idxOf v < (rowsOf rows t).length then w ⟨some (.inr (.inr ⟨t, h⟩)), ⟨_, h'⟩⟩ else 0 else 0

noncomputable def wPolicy (k : Nat) : ℝ := if h : k < nPol then w ⟨none, ⟨k, h⟩⟩ else 0

theorem wStart_latName (hg : GoodNames m) (f : Fin (nLat m)) : wStart m w (latName m f) = w ⟨some (.inl ()), f⟩ := by
  have hidx : (latents m).idxOf (latName m f) = f.val := nodup_get? hg.keys.factors (latName_get f)
  unfold wStart
  rw [dif_pos (by rw [hidx]; exact f.isLt)]
  congr 2
  exact Fin.ext hidx

theorem wShock_latName (hg : GoodNames m) {t : ℕ} (ht : t < nT + 1) (f : Fin (nLat m)) : wShock m w t (latName m f) = w ⟨some (.inr (.inl ⟨t, ht⟩)), f⟩ := by
  have hidx : (latents m).idxOf (latName m f) = f.val := nodup_get? hg.keys.factors (latName_get f)
  unfold wShock
  rw [dif_pos ht, dif_pos (by rw [hidx]; exact f.isLt)]
  congr 2
  exact Fin.ext hidx

theorem wError_var {t : ℕ} (ht : t < nT + 2) (hu : ((rowsOf rows t).map (fun r => r.var)).Nodup) (j : Fin (rowsOf rows t).length) :
    wError m w t ((rowsOf rows t).get j).var = w ⟨some (.inr (.inr ⟨t, ht⟩)), j⟩ := by
  have hidx : ((rowsOf rows t).map (fun r => r.var)).idxOf ((rowsOf rows t).get j).var = j.val := nodup_get? hu (by rw [List.getElem?_map, List.getElem?_eq_getElem j.isLt]; rfl)
  unfold wError
  rw [dif_pos ht, dif_pos (by rw [hidx]; exact j.isLt)]
  congr 2
  exact Fin.ext hidx

end

/-- All cells for a given noise vector. -/
noncomputable def noiseCells (custom : String → CustomFn) (m : ModelDict ℝ) (val : Loc → ℝ) (cov : Covariates) (policies : List Policy) {nT : ℕ} {rows : List (UpdateParams (nLat m) (nCon m))} (e : Nat)
    (w : SimIndex nT rows policies.length → ℝ) : Cell m → ℝ :=
  cellsWith custom m val cov policies (fun f => val ⟨.initialStates, 0, mixtureName e, f⟩ + wStart m w f) (wShock m w) (wError m w) (wPolicy m w)

end Skill
