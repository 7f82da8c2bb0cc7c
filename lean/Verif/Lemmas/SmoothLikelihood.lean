import Verif.Spec.Gradient
import Verif.Lemmas.SmoothFilter
import Verif.Lemmas.SimulateDataset2
import Verif.Props.Pipeline2
/-
The likelihood function is differentiable in the values of the parameters.
-/
namespace Skill
open Matrix Spec Filter Topology
variable {E : Type} [NormedAddCommGroup E] [NormedSpace ℝ E] {x₀ : E}

/-! ### transition functions -/

theorem diff_list_sum {ι : Type} {l : List ι} {g : E → ι → ℝ} (h : ∀ k ∈ l, DifferentiableAt ℝ (fun x => g x k) x₀) : DifferentiableAt ℝ (fun x => (l.map (g x)).sum) x₀ := by
  induction l with
  | nil => exact differentiableAt_const _
  | cons k l ih =>
    simp only [List.map_cons, List.sum_cons]
    exact (h k (by simp)).fun_add (ih (fun k' h' => h k' (by simp [h'])))

theorem map_ofFn_get {α β : Type} (l : List α) (g : α → β) : List.ofFn (fun i : Fin l.length => g (l.get i)) = l.map g := by
  have h : List.ofFn (fun i : Fin l.length => g (l.get i)) = (List.ofFn l.get).map g := by
    rw [List.map_ofFn]
    rfl
  rw [h, List.ofFn_get]

theorem zip_ofFn_map {α β : Type} (l : List α) (g : α → β) : l.zip (List.ofFn (fun i : Fin l.length => g (l.get i))) = l.map (fun a => (a, g a)) := by
  rw [map_ofFn_get]
  induction l with
  | nil => rfl
  | cons a l ih => simp [ih]

theorem nextValue_differentiable {factors : List String} {s v : E → String → ℝ} (hs : ∀ f, DifferentiableAt ℝ (fun x => s x f) x₀) (hv : ∀ f, DifferentiableAt ℝ (fun x => v x f) x₀) (factor : String)
    {fn : TransFn} (h : TransFn.Smooth factors (v x₀) fn) (hne : factors ≠ []) : DifferentiableAt ℝ (fun x => nextValue factors (s x) (v x) factor fn) x₀ := by
  have hlin : DifferentiableAt ℝ (fun x => linearTerms factors (s x) (v x)) x₀ := diff_list_sum (fun f _ => (hv f).fun_mul (hs f))
  have hsq : DifferentiableAt ℝ (fun x => squareTerms factors (s x) (v x)) x₀ := diff_list_sum (fun f _ => (hv _).fun_mul ((hs f).fun_pow 2))
  have hint : DifferentiableAt ℝ (fun x => interactionTerms factors (s x) (v x)) x₀ := by
    unfold interactionTerms
    refine DifferentiableAt.fun_sum (fun i _ => DifferentiableAt.fun_sum (fun j _ => ?_))
    split_ifs
    · exact ((hv _).fun_mul (hs _)).fun_mul (hs _)
    · exact differentiableAt_const _
  have hces : ∀ e : E → String → ℝ, (∀ f, DifferentiableAt ℝ (fun x => e x f) x₀) → (∀ f ∈ factors, 0 < v x₀ f) →
      DifferentiableAt ℝ (fun x => Real.log (factors.map (fun f => v x f * Real.exp (e x f * s x f))).sum) x₀ := by
    intro e he hp
    refine DifferentiableAt.log (diff_list_sum (fun f _ => (hv f).fun_mul ((he f).fun_mul (hs f)).exp)) ?_
    refine ne_of_gt (List.sum_pos _ ?_ (by simpa using hne))
    intro y hy
    obtain ⟨f, hf, rfl⟩ := List.mem_map.mp hy
    exact mul_pos (hp f hf) (Real.exp_pos _)
  cases fn with
  | builtin name =>
    rcases h with h | ⟨rfl, h1, h2⟩ | ⟨rfl, h2⟩
    · simp only [List.mem_cons, List.not_mem_nil, or_false] at h
      rcases h with rfl | rfl | rfl | rfl
      · simp only [nextValue, if_true, linearValue]
        exact hlin.fun_add (hv _)
      · simp only [nextValue, reduceIte, String.reduceEq, translogValue]
        exact ((hlin.fun_add hsq).fun_add hint).fun_add (hv _)
      · simp only [nextValue, reduceIte, String.reduceEq, linearAndSquaresValue]
        exact (hlin.fun_add hsq).fun_add (hv _)
      · simp only [nextValue, reduceIte, String.reduceEq]
        exact hs _
    · simp only [nextValue, reduceIte, String.reduceEq, logCesValue]
      exact diff_div (f := fun x => Real.log (factors.map (fun f => v x f * Real.exp (v x "phi" * s x f))).sum) (g := fun x => v x "phi") (hces (fun x _ => v x "phi") (fun _ => hv _) h2) (hv _) h1
    · simp only [nextValue, reduceIte, String.reduceEq, logCesGeneralValue]
      exact (hv _).fun_mul (hces (fun x f => v x ("sigma_" ++ f)) (fun _ => hv _) h2)
  | custom args names body =>
    have e : (fun x => nextValue factors (s x) (v x) factor (.custom args names body)) = fun x =>
        (fun z : (Fin args.length → ℝ) × (Fin factors.length → ℝ) × (Fin names.length → ℝ) => body (args.zip (List.ofFn z.1)) (List.ofFn z.2.1) (names.zip (List.ofFn z.2.2)))
          (fun i => s x (args.get i), fun i => s x (factors.get i), fun i => v x (names.get i)) := by
      funext x
      simp only [nextValue]
      rw [zip_ofFn_map args (s x), zip_ofFn_map names (v x), ← map_ofFn_get factors (s x)]
    rw [e]
    exact (h.2 _).comp x₀ (DifferentiableAt.prodMk (differentiableAt_pi.mpr (fun i => hs _)) (DifferentiableAt.prodMk (differentiableAt_pi.mpr (fun i => hs _)) (differentiableAt_pi.mpr (fun i => hv _))))

theorem Spec.TransFn.Smooth.usable {factors : List String} {v : String → ℝ} {fn : TransFn} (h : TransFn.Smooth factors v fn) : TransFn.Usable factors v fn := by
  cases fn with
  | builtin name =>
    rcases h with h | ⟨rfl, h1, h2⟩ | ⟨rfl, h2⟩
    · simp only [List.mem_cons, List.not_mem_nil, or_false] at h
      rcases h with rfl | rfl | rfl | rfl <;> simp [TransFn.Usable, builtinParamNames]
    · exact ⟨by simp [builtinParamNames], fun _ f hf => (h2 f hf).le⟩
    · exact ⟨by simp [builtinParamNames], fun _ f hf => (h2 f hf).le⟩
  | custom args names body => exact h.1

omit [NormedSpace ℝ E] in
theorem eventually_list {ι : Type} {l : List ι} {p : ι → E → Prop} (h : ∀ k ∈ l, ∀ᶠ x in 𝓝 x₀, p k x) : ∀ᶠ x in 𝓝 x₀, ∀ k ∈ l, p k x := by
  induction l with
  | nil => simp
  | cons k l ih =>
    have h1 := h k (by simp)
    have h2 := ih (fun k' h' => h k' (by simp [h']))
    filter_upwards [h1, h2] with x hx1 hx2 k' hk'
    rcases List.mem_cons.mp hk' with rfl | hk'
    · exact hx1
    · exact hx2 k' hk'

theorem smooth_eventually {factors : List String} {v : E → String → ℝ} (hv : ∀ f, DifferentiableAt ℝ (fun x => v x f) x₀) {fn : TransFn} (h : TransFn.Smooth factors (v x₀) fn) :
    ∀ᶠ x in 𝓝 x₀, TransFn.Smooth factors (v x) fn := by
  have hpos : (∀ f ∈ factors, 0 < v x₀ f) → ∀ᶠ x in 𝓝 x₀, ∀ f ∈ factors, 0 < v x f := fun hp =>
    eventually_list (fun f hf => (hv f).continuousAt.eventually (lt_mem_nhds (hp f hf)))
  cases fn with
  | builtin name =>
    rcases h with h | ⟨rfl, h1, h2⟩ | ⟨rfl, h2⟩
    · exact Eventually.of_forall (fun x => Or.inl h)
    · have h3 : ∀ᶠ x in 𝓝 x₀, v x "phi" ≠ 0 := (hv "phi").continuousAt.eventually_ne h1
      filter_upwards [hpos h2, h3] with x hx hx3
      exact Or.inr (Or.inl ⟨rfl, hx3, hx⟩)
    · filter_upwards [hpos h2] with x hx
      exact Or.inr (Or.inr ⟨rfl, hx⟩)
  | custom args names body => exact Eventually.of_forall (fun x => h)

/-! ### clipping -/

theorem softClipping_differentiable (lower upper : Option ℝ) (lowerHardness upperHardness : ℝ) : Differentiable ℝ (fun x => softClipping x lower upper lowerHardness upperHardness) := by
  intro y
  have key : ∀ (g : ℝ → ℝ), DifferentiableAt ℝ g y → ∀ h b : ℝ, DifferentiableAt ℝ (fun x => logsumexp ![h * g x, h * b]) y := by
    intro g hg h b
    refine diff_logsumexp (by norm_num) (fun e => ?_)
    refine Fin.cases ?_ (fun e => ?_) e
    · exact hg.const_mul h
    · fin_cases e
      exact differentiableAt_const _
  have key2 : ∀ (g : ℝ → ℝ), DifferentiableAt ℝ g y → DifferentiableAt ℝ (fun x => match upper with
      | none => g x
      | some u => -logsumexp ![upperHardness * -g x, upperHardness * -u] / upperHardness) y := by
    intro g hg
    cases upper with
    | none => exact hg
    | some u => exact ((key (fun x => -g x) hg.fun_neg _ _).fun_neg).div_const _
  unfold softClipping
  cases lower with
  | none => exact key2 _ differentiableAt_id
  | some l => exact key2 _ ((key _ differentiableAt_id _ _).div_const _)

/-! ### values of the parameters -/

section
variable {m : ModelDict ℝ} {pm : Processed ℝ} (hpm : processModel m = .ok pm) (hg : GoodNames m) {custom : String → CustomFn} {F : E → Loc → ℝ} {k : ℕ}

include hpm in
theorem interior_eventually (hF : ∀ l, DifferentiableAt ℝ (fun x => F x l) x₀) (h : InteriorValues custom m k (F x₀)) : ∀ᶠ x in 𝓝 x₀, InteriorValues custom m k (F x) := by
  have hne : ∀ l, F x₀ l ≠ 0 → ∀ᶠ x in 𝓝 x₀, F x l ≠ 0 := fun l hl => (hF l).continuousAt.eventually_ne hl
  obtain ⟨_, hup, _⟩ := C01_update_info_exact hpm
  have e1 : ∀ᶠ x in 𝓝 x₀, ∀ r ∈ pm.updateInfo, F x ⟨.measSds, r.period, r.var, "-"⟩ ≠ 0 :=
    eventually_list (fun r hr => hne _ (h.measSds _ _ ((hup _ _).mp ⟨r, hr, rfl, rfl⟩)))
  have e2 : ∀ᶠ x in 𝓝 x₀, ∀ t ∈ List.range (pm.dimensions.nPeriods - 1), ∀ fs ∈ m.factors, F x ⟨.shockSds, t, fs.1, "-"⟩ ≠ 0 ∨ fs.2.transition = .named "constant" := by
    refine eventually_list (fun t ht => eventually_list (fun fs hfs => ?_))
    rcases h.shockSds t ((isPeriod_iff hpm _).mpr (by have := List.mem_range.mp ht; omega)) fs hfs with h1 | h1
    · filter_upwards [hne _ h1] with x hx using Or.inl hx
    · exact Eventually.of_forall (fun _ => Or.inr h1)
  have e3 : ∀ᶠ x in 𝓝 x₀, ∀ e ∈ List.range k, ∀ fs ∈ m.factors, F x ⟨.initialCholcovs, 0, Spec.mixtureName e, fs.1 ++ "-" ++ fs.1⟩ ≠ 0 :=
    eventually_list (fun e he => eventually_list (fun fs hfs => hne _ (h.initial e (List.mem_range.mp he) _ ⟨fs.2, hfs⟩)))
  have e4 : ∀ᶠ x in 𝓝 x₀, ∀ e ∈ List.range k, 0 < F x ⟨.mixtureWeights, 0, Spec.mixtureName e, "-"⟩ :=
    eventually_list (fun e he => (hF _).continuousAt.eventually (lt_mem_nhds (h.weights e (List.mem_range.mp he))))
  have e5 : ∀ᶠ x in 𝓝 x₀, ∀ t ∈ List.range pm.dimensions.nPeriods, ∀ fo ∈ outcomesOf m, F x ⟨.loadings, t, fo.2 ++ "_" ++ fo.1, fo.1⟩ ≠ 0 :=
    eventually_list (fun t ht => eventually_list (fun fo hfo => hne _ (h.anchoring t ((isPeriod_iff hpm _).mpr (List.mem_range.mp ht)) _ _ (mem_outcomesOf.mp hfo))))
  have e6 : ∀ᶠ x in 𝓝 x₀, ∀ t ∈ List.range (pm.dimensions.nPeriods - 1), ∀ fs ∈ m.factors, TransFn.Smooth (allFactors m) (fun name => F x ⟨.transition, t, fs.1, name⟩) (transFnOf (custom fs.1) fs.2.transition) :=
    eventually_list (fun t ht => eventually_list (fun fs hfs =>
      smooth_eventually (fun f => hF _) (h.transition t ((isPeriod_iff hpm _).mpr (by have := List.mem_range.mp ht; omega)) fs hfs)))
  filter_upwards [e1, e2, e3, e4, e5, e6] with x h1 h2 h3 h4 h5 h6
  refine ⟨fun t v hv => ?_, fun t ht fs hfs => h2 t ?_ fs hfs, fun e he f hf => ?_, fun e he => h4 e (List.mem_range.mpr he), fun t ht f o hfo => h5 t ?_ (f, o) (mem_outcomesOf.mpr hfo), fun t ht fs hfs => h6 t ?_ fs hfs⟩
  · obtain ⟨r, hr, rfl, rfl⟩ := (hup t v).mpr hv
    exact h1 r hr
  · have := (isPeriod_iff hpm _).mp ht
    exact List.mem_range.mpr (by omega)
  · obtain ⟨spec, hs⟩ := hf
    exact h3 e (List.mem_range.mpr he) _ hs
  · exact List.mem_range.mpr ((isPeriod_iff hpm _).mp ht)
  · have := (isPeriod_iff hpm _).mp ht
    exact List.mem_range.mpr (by omega)

/-- A factor by position. -/
theorem latName_spec (m : ModelDict ℝ) (f : Fin (nLat m)) : ∃ spec, (latName m f, spec) ∈ m.factors := by
  have h1 := latName_get f
  have hf : m.factors[f.val]? = some m.factors[f.val] := List.getElem?_eq_getElem f.isLt
  rw [List.getElem?_map, hf] at h1
  have h2 : m.factors[f.val].1 = latName m f := Option.some.inj h1
  exact ⟨m.factors[f.val].2, by rw [← h2]; exact List.getElem_mem _⟩

theorem transitionOf_mem (hk : DictKeys m) {f : String} {spec : FactorSpec ℝ} (h : (f, spec) ∈ m.factors) : transitionOf custom m f = transFnOf (custom f) spec.transition := by
  unfold transitionOf
  rw [lookup_of_mem hk.factors h]
  rfl

theorem scalingOf_ne (hk : DictKeys m) {val : Loc → ℝ} (h : InteriorValues custom m k val) {t : ℕ} (ht : IsPeriod m t) (f : String) : scalingOf m val t f ≠ 0 := by
  unfold scalingOf
  cases ho : outcomeOf m f with
  | none => exact one_ne_zero
  | some o => exact h.anchoring t ht f o ((outcomeOf_some hk).mp ho)

variable {nObs nT : ℕ} {con : Fin (nT + 2) → Fin nObs → Fin (nCon m) → ℝ} {obs : Fin (nT + 2) → Fin nObs → Fin (nObsd m) → ℝ} (hT : pm.dimensions.nPeriods = nT + 2)
include hpm hg hT

theorem labelFixed_regular {val : Loc → ℝ} (h : InteriorValues custom m k val) (hs : 0 ≤ pm.estimationOptions.sigmaPointsScale) :
    RegularFixed (labelFixed custom m pm val nObs nT con obs) pm.estimationOptions.sigmaPointsScale := by
  refine ⟨hs, rfl, rfl, fun t f => ?_⟩
  obtain ⟨spec, hspec⟩ := latName_spec m f
  have hp : ∀ s : Fin (nT + 2), IsPeriod m s.val := fun s => (isPeriod_iff hpm _).mpr (by rw [hT]; exact s.isLt)
  have hp' : ∀ s : Fin (nT + 1), IsPeriod m (s.val + 1) := fun s => (isPeriod_iff hpm _).mpr (by rw [hT]; omega)
  rcases h.shockSds _ (hp' (jaxIndex nT t)) _ hspec with h1 | h1
  · exact Or.inl h1
  · refine Or.inr ⟨fun x => ?_, scalingOf_ne hg.keys h (hp _) _, scalingOf_ne hg.keys h (hp _) _⟩
    have := transition_name hpm hg custom val (t := (jaxIndex nT t).val) (fun fs hfs => (h.transition _ (hp' _) fs hfs).usable) (s := x) (x := byName m x) (fun g => byName_allName hg x g) f
    refine this.trans ?_
    rw [transitionOf_mem hg.keys hspec]
    simp only at h1
    rw [h1]
    simp only [transFnOf, nextValue, reduceIte, String.reduceEq]
    rw [← allName_castAdd, byName_allName hg]

theorem labelFixed_smooth (hF : ∀ l, DifferentiableAt ℝ (fun x => F x l) x₀) (h : InteriorValues custom m k (F x₀)) : SmoothFixed (fun x => labelFixed custom m pm (F x) nObs nT con obs) x₀ := by
  have hp : ∀ s : Fin (nT + 2), IsPeriod m s.val := fun s => (isPeriod_iff hpm _).mpr (by rw [hT]; exact s.isLt)
  have hp' : ∀ s : Fin (nT + 1), IsPeriod m (s.val + 1) := fun s => (isPeriod_iff hpm _).mpr (by rw [hT]; omega)
  refine ⟨fun _ => rfl, fun _ => rfl, fun _ => rfl, fun _ => rfl, fun t f => hF _, fun t f => ?_, fun t f => scalingOf_ne hg.keys h (hp t) _, fun t f => ?_, fun t σ hσ f => ?_⟩
  · simp only [labelFixed, scalingOf]
    cases outcomeOf m (allName m f) with
    | none => exact differentiableAt_const _
    | some o => exact hF _
  · simp only [labelFixed, constantOf]
    split_ifs
    · exact differentiableAt_const _
    · cases outcomeOf m (allName m f) with
      | none => exact differentiableAt_const _
      | some o => exact hF _
  · obtain ⟨spec, hspec⟩ := latName_spec m f
    have hev : (fun x => (labelFixed custom m pm (F x) nObs nT con obs).func ((labelFixed custom m pm (F x) nObs nT con obs).transition t) (σ x) f) =ᶠ[𝓝 x₀]
        fun x => nextValue (allFactors m) (byName m (σ x)) (fun name => F x ⟨.transition, t, latName m f, name⟩) (latName m f) (transFnOf (custom (latName m f)) spec.transition) := by
      filter_upwards [interior_eventually hpm hF h] with x hx
      rw [← transitionOf_mem hg.keys hspec]
      exact transition_name hpm hg custom (F x) (t := t.val) (fun fs hfs => (hx.transition _ (hp' _) fs hfs).usable) (s := σ x) (x := byName m (σ x)) (fun g => byName_allName hg (σ x) g) f
    refine DifferentiableAt.congr_of_eventuallyEq ?_ hev
    refine nextValue_differentiable (fun g => ?_) (fun name => hF _) _ (h.transition _ (hp' t) _ hspec) ?_
    · unfold byName
      by_cases hlt : (allFactors m).idxOf g < nLat m + nObsd m
      · have : (fun x => (List.ofFn (σ x)).getD ((allFactors m).idxOf g) 0) = fun x => σ x ⟨_, hlt⟩ := by
          funext x
          rw [List.getD_eq_getElem?_getD, List.getElem?_ofFn, dif_pos hlt]
          rfl
        rw [this]
        exact hσ _
      · have : (fun x => (List.ofFn (σ x)).getD ((allFactors m).idxOf g) 0) = fun _ => (0 : ℝ) := by
          funext x
          rw [List.getD_eq_getElem?_getD, List.getElem?_ofFn, dif_neg hlt]
          rfl
        rw [this]
        exact differentiableAt_const _
    · intro h0
      have := allName_get (Fin.castAdd (nObsd m) f)
      rw [h0] at this
      simp at this

omit hpm hg hT in
theorem labelCarry_regular {val : Loc → ℝ} (h : InteriorValues custom m k val) (i : Fin nObs) (e : Fin k) : RegularUpper ((labelCarry m val nObs k).upperChols i e) := by
  refine ⟨fun a b hab => ?_, fun a => ?_⟩
  · simp only [labelCarry, of_apply]
    rw [if_neg (not_le.mpr hab)]
  · simp only [labelCarry, of_apply, le_refl, if_true]
    exact h.initial e e.isLt _ (latName_spec m a)

omit hpm hg hT in
theorem labelCarry_smooth (hF : ∀ l, DifferentiableAt ℝ (fun x => F x l) x₀) (h : InteriorValues custom m k (F x₀)) : SmoothCarry (fun x => labelCarry m (F x) nObs k) x₀ := by
  refine ⟨fun i e f => hF _, fun i e f g => ?_, fun i e => ?_, fun i e => labelCarry_regular h i e⟩
  · simp only [labelCarry, of_apply]
    split_ifs
    · exact hF _
    · exact differentiableAt_const _
  · exact DifferentiableAt.log (hF _) (h.weights e e.isLt).ne'

/-- The arguments of the loop, as function of the values of the parameters. -/
def labelArgs (m : ModelDict ℝ) (val : Loc → ℝ) (x : (URow × (Fin nObs → Option ℝ)) × (Int × Bool)) : LoopArgs nObs (nLat m) (nCon m) :=
  { period := x.2.1, loadings := (labelRow m val x.1.1).loadings, controlParams := (labelRow m val x.1.1).controlParams, measSd := (labelRow m val x.1.1).sd, measurements := x.1.2
    isMeasurement := (labelRow m val x.1.1).isMeasurement, isPredict := x.2.2 }

omit hpm hg hT in
theorem loopArgs_label (last : ℕ) (rows : List URow) (data : List (Fin nObs → Option ℝ)) (val : Loc → ℝ) :
    loopArgs last (rows.map (labelRow m val)) data = ((rows.zip data).zip ((iterationToPeriod last (rows.map (fun r => r.period))).zip (isPredictIteration (rows.map (fun r => r.period))))).map (labelArgs m val) := by
  unfold loopArgs
  have h1 : (rows.map (labelRow m val)).map (fun r => r.period) = rows.map (fun r => r.period) := by
    rw [List.map_map]
    rfl
  rw [h1, List.zip_map_left, List.zip_map_left, List.map_map]
  rfl

/-- Value and contributions of the likelihood function are differentiable. -/
theorem likelihood_smooth {qr : QR} (hqr : ValidQR qr) (hs : 0 ≤ pm.estimationOptions.sigmaPointsScale) (hF : ∀ l, DifferentiableAt ℝ (fun x => F x l) x₀) (h : InteriorValues custom m k (F x₀))
    (data : List (Fin nObs → Option ℝ)) {g : ℝ → ℝ} (hgd : Differentiable ℝ g) (i : Fin nObs) :
    DifferentiableAt ℝ (fun x => ((outs qr (labelFixed custom m pm (F x) nObs nT con obs) (labelCarry m (F x) nObs k) (loopArgs (nT + 1) (pm.updateInfo.map (labelRow m (F x))) data)).map (fun o => g (o.loglikes i))).sum) x₀ := by
  obtain ⟨_, hup, _⟩ := C01_update_info_exact hpm
  have hrow : ∀ y ∈ (pm.updateInfo.zip data).zip ((iterationToPeriod (nT + 1) (pm.updateInfo.map (fun r => r.period))).zip (isPredictIteration (pm.updateInfo.map (fun r => r.period)))), y.1.1 ∈ pm.updateInfo :=
    fun y hy => (List.of_mem_zip (List.of_mem_zip hy).1).1
  have hsd : ∀ x, InteriorValues custom m k (F x) → ∀ a ∈ loopArgs (nT + 1) (pm.updateInfo.map (labelRow m (F x))) data, a.measSd ≠ 0 := by
    intro x hx a ha
    rw [loopArgs_label] at ha
    obtain ⟨y, hy, rfl⟩ := List.mem_map.mp ha
    exact hx.measSds _ _ ((hup _ _).mp ⟨_, hrow y hy, rfl, rfl⟩)
  have hev : (fun x => ((outs qr (labelFixed custom m pm (F x) nObs nT con obs) (labelCarry m (F x) nObs k) (loopArgs (nT + 1) (pm.updateInfo.map (labelRow m (F x))) data)).map (fun o => g (o.loglikes i))).sum) =ᶠ[𝓝 x₀]
      fun x => ((outs smoothQR (labelFixed custom m pm (F x) nObs nT con obs) (labelCarry m (F x) nObs k) (((pm.updateInfo.zip data).zip ((iterationToPeriod (nT + 1) (pm.updateInfo.map (fun r => r.period))).zip
        (isPredictIteration (pm.updateInfo.map (fun r => r.period))))).map (labelArgs m (F x)))).map (fun o => g (o.loglikes i))).sum := by
    filter_upwards [interior_eventually hpm hF h] with x hx
    rw [← loopArgs_label]
    have heq : CarryEquiv (labelCarry m (F x) nObs k) (labelCarry m (F x) nObs k) := ⟨rfl, rfl, labelCarry_regular hx, labelCarry_regular hx, fun _ _ => rfl⟩
    rw [(foldl_equiv hqr smoothQR_valid (labelFixed_regular hpm hg hT hx hs) (hsd x hx) heq).2]
  refine DifferentiableAt.congr_of_eventuallyEq ?_ hev
  refine outs_smooth (labelFixed_smooth hpm hg hT hF h) (labelFixed_regular hpm hg hT h hs) hgd (fun y hy => ⟨fun _ => rfl, fun _ => rfl, fun _ => rfl, fun _ => rfl, fun f => ?_, fun f => hF _, hF _, ?_⟩) (labelCarry_smooth hF h) i
  · simp only [labelArgs, labelRow]
    split_ifs
    · exact hF _
    · exact differentiableAt_const _
  · exact h.measSds _ _ ((hup _ _).mp ⟨_, hrow y hy, rfl, rfl⟩)

end

end Skill
