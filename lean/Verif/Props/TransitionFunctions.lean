import Verif.Lemmas.TransitionFunctions
import Verif.Lemmas.ProcessModel
import Verif.Spec.TransitionFunctions
/-
C46, C47, C48, C50: transition functions.
-/
namespace Skill
open Spec

/-! ### C46 -/

theorem linear_eq (fs : List String) (x v : String → ℝ) : linear (fs.map x) ((paramsLinear fs).map v) = .ok (linearValue fs x v) := by
  unfold linear paramsLinear
  simp only [List.map_append, List.map_cons, List.map_nil, lastParam_append, List.dropLast_concat]
  show (jnpDot (fs.map x) (fs.map v) >>= fun d => pure (d + v "constant")) = _
  rw [jnpDot_map]
  rfl

/-- C46: linear transition functions have one parameter for each factor and a constant: with another number of parameters there is an error. -/
theorem C46_linear_length (states params : List ℝ) : (∃ v, linear states params = .ok v) ↔ params.length = states.length + 1 := by
  unfold linear lastParam
  rcases List.eq_nil_or_concat params with rfl | ⟨betas, c, rfl⟩
  · simp [bind, Except.bind]
  · simp only [List.getLast?_concat, List.dropLast_concat, jnpDot, bind, Except.bind, pure, Except.pure, List.length_append, List.length_singleton, List.concat_eq_append]
    by_cases h : states.length = betas.length
    · simp [h]
    · rw [if_neg h]
      simp only [reduceCtorEq, exists_false, false_iff]
      omega

theorem translog_eq (fs : List String) (x v : String → ℝ) : translog (fs.map x) ((paramsTranslog fs).map v) = .ok (translogValue fs x v) := by
  have hp : (paramsTranslog fs).map v = fs.map v ++ fs.map (fun f => v (f ++ " ** 2")) ++
      (combinations2 fs).map (fun ab => v (ab.1 ++ " * " ++ ab.2)) ++ [v "constant"] := by
    simp [paramsTranslog, Function.comp_def]
  unfold translog
  rw [hp]
  have h1 : ((fs.map v ++ fs.map (fun f => v (f ++ " ** 2")) ++ (combinations2 fs).map (fun ab => v (ab.1 ++ " * " ++ ab.2)) ++ [v "constant"]).take
      (fs.map x).length) = fs.map v := by
    rw [List.append_assoc, List.append_assoc, List.length_map, ← List.length_map (f := v), List.take_left']
    rfl
  have h2 : ((fs.map v ++ fs.map (fun f => v (f ++ " ** 2")) ++ (combinations2 fs).map (fun ab => v (ab.1 ++ " * " ++ ab.2)) ++ [v "constant"]).take
      (2 * (fs.map x).length)).drop (fs.map x).length = fs.map (fun f => v (f ++ " ** 2")) := by
    have : 2 * (fs.map x).length = (fs.map v ++ fs.map (fun f => v (f ++ " ** 2"))).length := by simp; omega
    rw [List.append_assoc, this, List.take_left', List.length_map, ← List.length_map (f := v), List.drop_left']
    · rfl
    · rfl
  have h3 : ((fs.map v ++ fs.map (fun f => v (f ++ " ** 2")) ++ (combinations2 fs).map (fun ab => v (ab.1 ++ " * " ++ ab.2)) ++ [v "constant"]).dropLast.drop
      (2 * (fs.map x).length)) = (combinations2 fs).map (fun ab => v (ab.1 ++ " * " ++ ab.2)) := by
    have : 2 * (fs.map x).length = (fs.map v ++ fs.map (fun f => v (f ++ " ** 2"))).length := by simp; omega
    rw [List.dropLast_concat, this, List.drop_left']
    rfl
  simp only [lastParam_append, h1, h2, h3, List.map_map]
  rw [jnpDot_map, jnpDot_map, List.length_map]
  show (addInteractions _ _ _ >>= fun res => pure (res + v "constant")) = _
  rw [addInteractions_factors fs x (fun ab => v (ab.1 ++ " * " ++ ab.2))]
  rw [sum_combinations2]
  rfl

theorem linearAndSquares_eq (fs : List String) (x v : String → ℝ) :
    linearAndSquares (fs.map x) ((paramsLinearAndSquares fs).map v) = .ok (linearAndSquaresValue fs x v) := by
  have hp : (paramsLinearAndSquares fs).map v = fs.map v ++ fs.map (fun f => v (f ++ " ** 2")) ++ [v "constant"] := by
    simp [paramsLinearAndSquares, Function.comp_def]
  unfold linearAndSquares
  rw [hp]
  have h1 : ((fs.map v ++ fs.map (fun f => v (f ++ " ** 2")) ++ [v "constant"]).take (fs.map x).length) = fs.map v := by
    rw [List.append_assoc, List.length_map, ← List.length_map (f := v), List.take_left']
    rfl
  have h2 : ((fs.map v ++ fs.map (fun f => v (f ++ " ** 2")) ++ [v "constant"]).take
      (2 * (fs.map x).length)).drop (fs.map x).length = fs.map (fun f => v (f ++ " ** 2")) := by
    have : 2 * (fs.map x).length = (fs.map v ++ fs.map (fun f => v (f ++ " ** 2"))).length := by simp; omega
    rw [this, List.take_left', List.length_map, ← List.length_map (f := v), List.drop_left']
    · rfl
    · rfl
  simp only [lastParam_append, h1, h2, List.map_map]
  rw [jnpDot_map, jnpDot_map]
  rfl

theorem robustTranslog_eq (fs : List String) (x v : String → ℝ) :
    robustTranslog (fs.map x) ((paramsRobustTranslog fs).map v) = .ok (translogValue fs (fun f => min (max (x f) (-10 ^ 12)) (10 ^ 12)) v) := by
  unfold robustTranslog paramsRobustTranslog
  rw [List.map_map, translog_eq]
  congr 2
  funext f
  simp only [Function.comp_def, clipState]
  norm_num

theorem logCes_eq (fs : List String) (x : String → ℝ) {v : String → ℝ} (hv : ∀ f ∈ fs, 0 ≤ v f) :
    logCes (fs.map x) ((paramsLogCes fs).map v) = .ok (logCesValue fs x v) := by
  unfold logCes paramsLogCes
  simp only [List.map_append, List.map_cons, List.map_nil, lastParam_append, List.dropLast_concat, List.map_map]
  show (weightedLogsumexp (fs.map v) (fs.map (fun f => x f * v "phi")) >>= fun u => pure (u * (1 / v "phi"))) = _
  rw [weightedLogsumexp, if_pos (by simp), zipWith_map]
  have : fs.map (fun f => expLogWeight (v f) (x f * v "phi")) = fs.map (fun f => v f * Real.exp (v "phi" * x f)) :=
    List.map_congr_left (fun f hf => by rw [expLogWeight_eq (hv f hf), mul_comm (x f)])
  rw [this]
  show Except.ok _ = _
  rw [mul_one_div]
  rfl

theorem logCesGeneral_eq (fs : List String) (x : String → ℝ) {v : String → ℝ} (hv : ∀ f ∈ fs, 0 ≤ v f) :
    logCesGeneral (fs.map x) ((paramsLogCesGeneral fs).map v) = .ok (logCesGeneralValue fs x v) := by
  have hp : (paramsLogCesGeneral fs).map v = fs.map v ++ fs.map (fun f => v ("sigma_" ++ f)) ++ [v "tfp"] := by
    simp [paramsLogCesGeneral, Function.comp_def]
  unfold logCesGeneral
  rw [hp]
  have h1 : ((fs.map v ++ fs.map (fun f => v ("sigma_" ++ f)) ++ [v "tfp"]).take (fs.map x).length) = fs.map v := by
    rw [List.append_assoc, List.length_map, ← List.length_map (f := v), List.take_left']
    rfl
  have h2 : ((fs.map v ++ fs.map (fun f => v ("sigma_" ++ f)) ++ [v "tfp"]).take
      (2 * (fs.map x).length)).drop (fs.map x).length = fs.map (fun f => v ("sigma_" ++ f)) := by
    have : 2 * (fs.map x).length = (fs.map v ++ fs.map (fun f => v ("sigma_" ++ f))).length := by simp; omega
    rw [this, List.take_left', List.length_map, ← List.length_map (f := v), List.drop_left']
    · rfl
    · rfl
  simp only [lastParam_append, h1, h2]
  show (if (fs.map x).length = (fs.map (fun f => v ("sigma_" ++ f))).length then _ else _) = _
  rw [if_pos (by simp), zipWith_map, weightedLogsumexp, if_pos (by simp), zipWith_map]
  have : fs.map (fun f => expLogWeight (v f) (x f * v ("sigma_" ++ f))) = fs.map (fun f => v f * Real.exp (v ("sigma_" ++ f) * x f)) :=
    List.map_congr_left (fun f hf => by rw [expLogWeight_eq (hv f hf), mul_comm (x f)])
  rw [this]
  show Except.ok _ = _
  rw [mul_comm]
  rfl

/-- **C46.** Let `x f` be the state of factor f and `v name` the value of the parameter called `name`. All
built-in functions, called with the states in the order of the factors and the parameters in the order
of their names, use each parameter for the term that its name says. -/
theorem C46_parameters_by_name (fs : List String) (x v : String → ℝ) :
    linear (fs.map x) ((paramsLinear fs).map v) = .ok (linearValue fs x v) ∧
    translog (fs.map x) ((paramsTranslog fs).map v) = .ok (translogValue fs x v) ∧
    robustTranslog (fs.map x) ((paramsRobustTranslog fs).map v) = .ok (translogValue fs (fun f => min (max (x f) (-10 ^ 12)) (10 ^ 12)) v) ∧
    linearAndSquares (fs.map x) ((paramsLinearAndSquares fs).map v) = .ok (linearAndSquaresValue fs x v) ∧
    ((∀ f ∈ fs, 0 ≤ v f) → logCes (fs.map x) ((paramsLogCes fs).map v) = .ok (logCesValue fs x v) ∧
      logCesGeneral (fs.map x) ((paramsLogCesGeneral fs).map v) = .ok (logCesGeneralValue fs x v)) :=
  ⟨linear_eq fs x v, translog_eq fs x v, robustTranslog_eq fs x v, linearAndSquares_eq fs x v, fun h => ⟨logCes_eq fs x h, logCesGeneral_eq fs x h⟩⟩

/-- Every list of parameters comes from an assignment of values to names if the names are distinct (see C49), and
every list of states from an assignment of values to factors. -/
theorem exists_assignment {names : List String} (hn : names.Nodup) {params : List ℝ} (hl : params.length = names.length) :
    ∃ v : String → ℝ, params = names.map v := by
  induction names generalizing params with
  | nil => exact ⟨fun _ => 0, by simpa using hl⟩
  | cons n ns ih =>
    cases params with
    | nil => simp at hl
    | cons p ps =>
      rw [List.nodup_cons] at hn
      obtain ⟨v, hv⟩ := ih hn.2 (by simpa using hl)
      refine ⟨Function.update v n p, ?_⟩
      rw [List.map_cons, Function.update_self, hv]
      congr 1
      exact List.map_congr_left (fun a ha => by rw [Function.update_of_ne]; rintro rfl; exact hn.1 ha)

/-! ### C47 -/

/-- **C47.** The built-in functions are nested. -/
theorem C47_nested (fs : List String) (x v : String → ℝ) :
    ((∀ f ∈ fs, v (f ++ " ** 2") = 0) → (∀ a ∈ fs, ∀ b ∈ fs, v (a ++ " * " ++ b) = 0) →
      translog (fs.map x) ((paramsTranslog fs).map v) = linear (fs.map x) ((paramsLinear fs).map v)) ∧
    ((∀ a ∈ fs, ∀ b ∈ fs, v (a ++ " * " ++ b) = 0) →
      translog (fs.map x) ((paramsTranslog fs).map v) = linearAndSquares (fs.map x) ((paramsLinearAndSquares fs).map v)) ∧
    ((∀ f ∈ fs, |x f| ≤ 10 ^ 12) →
      robustTranslog (fs.map x) ((paramsRobustTranslog fs).map v) = translog (fs.map x) ((paramsTranslog fs).map v)) ∧
    ((∀ f ∈ fs, 0 ≤ v f) → v "tfp" = 1 / v "phi" → (∀ f ∈ fs, v ("sigma_" ++ f) = v "phi") →
      logCesGeneral (fs.map x) ((paramsLogCesGeneral fs).map v) = logCes (fs.map x) ((paramsLogCes fs).map v)) := by
  have hint : (∀ a ∈ fs, ∀ b ∈ fs, v (a ++ " * " ++ b) = 0) → interactionTerms fs x v = 0 := by
    intro h
    refine Finset.sum_eq_zero (fun i _ => Finset.sum_eq_zero (fun j _ => ?_))
    split
    · rw [h _ (List.get_mem ..) _ (List.get_mem ..), zero_mul, zero_mul]
    · rfl
  refine ⟨fun h1 h2 => ?_, fun h2 => ?_, fun h => ?_, fun h1 h2 h3 => ?_⟩
  · rw [translog_eq, linear_eq, translogValue, hint h2, linearValue]
    have : squareTerms fs x v = 0 := by
      refine List.sum_eq_zero (fun y hy => ?_)
      obtain ⟨f, hf, rfl⟩ := List.mem_map.mp hy
      rw [h1 f hf, zero_mul]
    rw [this, add_zero, add_zero]
  · rw [translog_eq, linearAndSquares_eq, translogValue, hint h2, linearAndSquaresValue, add_zero]
  · have : fs.map (fun f => clipState (x f)) = fs.map x := by
      refine List.map_congr_left (fun f hf => ?_)
      obtain ⟨ha, hb⟩ := abs_le.mp (h f hf)
      unfold clipState
      rw [max_eq_left (by norm_num at ha ⊢; linarith), min_eq_left (by norm_num at hb ⊢; linarith)]
    unfold robustTranslog paramsRobustTranslog
    rw [List.map_map]
    exact congrArg (fun s => translog s _) this
  · rw [logCesGeneral_eq fs x h1, logCes_eq fs x h1, logCesGeneralValue, logCesValue, h2]
    have : fs.map (fun f => v f * Real.exp (v ("sigma_" ++ f) * x f)) = fs.map (fun f => v f * Real.exp (v "phi" * x f)) :=
      List.map_congr_left (fun f hf => by rw [h3 f hf])
    rw [this]
    congr 1
    ring

/-! ### C48 -/

theorem sum_le_sum_map {β : Type _} {l : List β} {f g : β → ℝ} (h : ∀ b ∈ l, f b ≤ g b) : (l.map f).sum ≤ (l.map g).sum :=
  List.sum_le_sum h

/-- **C48.** With non-negative weights that sum to one and phi ≠ 0, log_ces lies between any lower and upper
bound of the states (in particular between the smallest and the largest one), shifts one-to-one with a common shift
of all states, and is increasing in the states (strictly in those with positive weight). -/
theorem C48_log_ces {fs : List String} {v : String → ℝ} (hv : ∀ f ∈ fs, 0 ≤ v f) (hsum : (fs.map v).sum = 1) (hphi : v "phi" ≠ 0) (x : String → ℝ) :
    ∃ r, logCes (fs.map x) ((paramsLogCes fs).map v) = .ok r ∧
      (∀ lo hi, (∀ f ∈ fs, lo ≤ x f ∧ x f ≤ hi) → lo ≤ r ∧ r ≤ hi) ∧
      (∀ c, logCes (fs.map (fun f => x f + c)) ((paramsLogCes fs).map v) = .ok (r + c)) ∧
      (∀ x' : String → ℝ, (∀ f ∈ fs, x f ≤ x' f) → ∃ r', logCes (fs.map x') ((paramsLogCes fs).map v) = .ok r' ∧ r ≤ r' ∧
        ((∃ f ∈ fs, 0 < v f ∧ x f < x' f) → r < r')) := by
  set S : (String → ℝ) → ℝ := fun x => (fs.map (fun f => v f * Real.exp (v "phi" * x f))).sum with hS
  have hval : ∀ x, logCesValue fs x v = Real.log (S x) / v "phi" := fun x => rfl
  have hSpos : ∀ x, 0 < S x := by
    intro x
    have hne : ∃ f ∈ fs, 0 < v f := by
      by_contra hcon
      push Not at hcon
      have : (fs.map v).sum = 0 := List.sum_eq_zero (fun y hy => by
        obtain ⟨f, hf, rfl⟩ := List.mem_map.mp hy
        exact le_antisymm (hcon f hf) (hv f hf))
      rw [this] at hsum
      exact zero_ne_one hsum
    obtain ⟨f, hf, hpos⟩ := hne
    have h0 : ∀ y ∈ fs.map (fun f => v f * Real.exp (v "phi" * x f)), 0 ≤ y := fun y hy => by
      obtain ⟨g, hg, rfl⟩ := List.mem_map.mp hy
      exact mul_nonneg (hv g hg) (Real.exp_pos _).le
    exact lt_of_lt_of_le (mul_pos hpos (Real.exp_pos _)) (List.single_le_sum h0 _ (List.mem_map.mpr ⟨f, hf, rfl⟩))
  have hconst : ∀ c, S (fun _ => c) = Real.exp (v "phi" * c) := by
    intro c
    simp only [hS]
    rw [List.sum_map_mul_right, hsum, one_mul]
  have hshift : ∀ x c, S (fun f => x f + c) = S x * Real.exp (v "phi" * c) := by
    intro x c
    simp only [hS]
    rw [← List.sum_map_mul_right]
    congr 1
    exact List.map_congr_left (fun f _ => by rw [mul_add, Real.exp_add, mul_assoc])
  have hmono : ∀ x x' : String → ℝ, (∀ f ∈ fs, x f ≤ x' f) → Real.log (S x) / v "phi" ≤ Real.log (S x') / v "phi" := by
    intro x x' h
    rcases lt_or_gt_of_ne hphi with hneg | hpos
    · rw [div_le_div_right_of_neg hneg]
      refine Real.log_le_log (hSpos x') (sum_le_sum_map (fun f hf => ?_))
      exact mul_le_mul_of_nonneg_left (Real.exp_le_exp.mpr (mul_le_mul_of_nonpos_left (h f hf) hneg.le)) (hv f hf)
    · rw [div_le_div_iff_of_pos_right hpos]
      refine Real.log_le_log (hSpos x) (sum_le_sum_map (fun f hf => ?_))
      exact mul_le_mul_of_nonneg_left (Real.exp_le_exp.mpr (mul_le_mul_of_nonneg_left (h f hf) hpos.le)) (hv f hf)
  have hstrict : ∀ x x' : String → ℝ, (∀ f ∈ fs, x f ≤ x' f) → (∃ f ∈ fs, 0 < v f ∧ x f < x' f) → Real.log (S x) / v "phi" < Real.log (S x') / v "phi" := by
    rintro x x' h ⟨f, hf, hvf, hxf⟩
    rcases lt_or_gt_of_ne hphi with hneg | hpos
    · rw [div_lt_div_right_of_neg hneg]
      refine Real.log_lt_log (hSpos x') (List.sum_lt_sum _ _ (fun g hg => ?_) ⟨f, hf, ?_⟩)
      · exact mul_le_mul_of_nonneg_left (Real.exp_le_exp.mpr (mul_le_mul_of_nonpos_left (h g hg) hneg.le)) (hv g hg)
      · exact mul_lt_mul_of_pos_left (Real.exp_lt_exp.mpr (mul_lt_mul_of_neg_left hxf hneg)) hvf
    · rw [div_lt_div_iff_of_pos_right hpos]
      refine Real.log_lt_log (hSpos x) (List.sum_lt_sum _ _ (fun g hg => ?_) ⟨f, hf, ?_⟩)
      · exact mul_le_mul_of_nonneg_left (Real.exp_le_exp.mpr (mul_le_mul_of_nonneg_left (h g hg) hpos.le)) (hv g hg)
      · exact mul_lt_mul_of_pos_left (Real.exp_lt_exp.mpr (mul_lt_mul_of_pos_left hxf hpos)) hvf
  have hc : ∀ c, Real.log (S (fun _ => c)) / v "phi" = c := by
    intro c
    rw [hconst, Real.log_exp, mul_div_cancel_left₀ _ hphi]
  refine ⟨logCesValue fs x v, logCes_eq fs x hv, ?_, ?_, ?_⟩
  · intro lo hi h
    rw [hval]
    constructor
    · have := hmono (fun _ => lo) x (fun f hf => (h f hf).1)
      rwa [hc] at this
    · have := hmono x (fun _ => hi) (fun f hf => (h f hf).2)
      rwa [hc] at this
  · intro c
    rw [logCes_eq fs _ hv, hval, hval, hshift, Real.log_mul (hSpos x).ne' (Real.exp_pos _).ne', Real.log_exp, add_div, mul_div_cancel_left₀ _ hphi]
  · intro x' h
    exact ⟨_, logCes_eq fs x' hv, hmono x x' h, hstrict x x' h⟩

/-! ### C50 -/

theorem extractFactor_eq {fs : List String} (x : String → ℝ) {f : String} (hf : f ∈ fs) : extractFactor fs (fs.map x) f = .ok (x f) := by
  rw [extractFactor, if_pos hf, pyIndex]
  have hlt := List.idxOf_lt_length_of_mem hf
  have : (fs.map x)[fs.idxOf f]? = some (x f) := by
    rw [List.getElem?_map, List.getElem?_eq_getElem hlt, List.getElem_idxOf hlt]
    rfl
  rw [this]

theorem zip_map_self (names : List String) (v : String → ℝ) : names.zip (names.map v) = names.map (fun p => (p, v p)) := by
  induction names with
  | nil => rfl
  | cons n ns ih => rw [List.map_cons, List.zip_cons_cons, ih, List.map_cons]

theorem nextFactor_eq {fs : List String} (x v : String → ℝ) {params : Dict (List ℝ)} {f : String} (hf : f ∈ fs) {fn : TransFn}
    (hp : Dict.getItem params f = .ok ((paramNamesOf fs fn).map v)) (hu : TransFn.Usable fs v fn) :
    nextFactor fs params (fs.map x) f fn = .ok (nextValue fs x v f fn) := by
  unfold nextFactor
  rw [hp]
  cases fn with
  | builtin name =>
    obtain ⟨h1, h2⟩ := hu
    simp only [paramNamesOf, nextValue] at *
    show (if name = "linear" then _ else _) = _
    unfold builtinParamNames at h1 ⊢
    by_cases c1 : name = "linear"
    · simp only [c1, if_true]; exact linear_eq fs x v
    by_cases c2 : name = "translog"
    · simp only [c2, reduceIte, String.reduceEq]; exact translog_eq fs x v
    by_cases c3 : name = "log_ces"
    · simp only [c3, reduceIte, String.reduceEq]; exact logCes_eq fs x (h2 (Or.inl c3))
    by_cases c4 : name = "constant"
    · simp only [c4, reduceIte, String.reduceEq]; exact extractFactor_eq x hf
    by_cases c5 : name = "robust_translog"
    · simp only [c5, reduceIte, String.reduceEq]; exact robustTranslog_eq fs x v
    by_cases c6 : name = "linear_and_squares"
    · simp only [c6, reduceIte, String.reduceEq]; exact linearAndSquares_eq fs x v
    by_cases c7 : name = "log_ces_general"
    · simp only [c7, reduceIte, String.reduceEq]; exact logCesGeneral_eq fs x (h2 (Or.inr c7))
    · simp [c1, c2, c3, c4, c5, c6, c7] at h1
  | custom args names body =>
    have hm : args.mapM (fun a => do
        let y ← extractFactor fs (fs.map x) a
        pure (a, y)) = (Except.ok (args.map (fun a => (a, x a))) : Py _) := by
      rw [mapM_ok_iff, List.forall₂_map_right_iff, List.forall₂_same]
      intro a ha
      rw [extractFactor_eq x (hu a ha)]
      rfl
    show (args.mapM (fun a => do
        let y ← extractFactor fs (fs.map x) a
        pure (a, y)) >>= fun values => pure (body values (fs.map x) (names.zip (names.map v)))) = _
    rw [hm]
    show Except.ok _ = _
    rw [zip_map_self]
    rfl

/-- **C50.** Let the states be the values `x` of all factors (in their order) and let the parameters of each latent factor f
be the values `v f name` of its parameters in the order of their names. The combined transition function returns, in
the order of the latent factors, the next value of each latent factor computed with its own function and
parameters; factors that a custom function requests by name get their own value. -/
theorem C50_combined_function {fs : List String} {fns : Dict TransFn} (hfs : ∀ fn ∈ fns, fn.1 ∈ fs) (x : String → ℝ) (v : String → String → ℝ)
    {params : Dict (List ℝ)} (hp : ∀ fn ∈ fns, Dict.getItem params fn.1 = .ok ((paramNamesOf fs fn.2).map (v fn.1)))
    (hu : ∀ fn ∈ fns, TransFn.Usable fs (v fn.1) fn.2) :
    transitionFunction fs fns params (fs.map x) = .ok (fns.map (fun fn => nextValue fs x (v fn.1) fn.1 fn.2)) := by
  unfold transitionFunction
  rw [mapM_ok_iff, List.forall₂_map_right_iff, List.forall₂_same]
  intro fn hfn
  exact nextFactor_eq x (v fn.1) (hfs fn hfn) (hp fn hfn) (hu fn hfn)

namespace Ex

/-- C46-C48: weights of a CES function with two factors. -/
noncomputable def cesParams : String → ℝ := fun s => if s = "a" then 1 / 4 else if s = "b" then 3 / 4 else 2

theorem ces_ok : (∀ f ∈ ["a", "b"], 0 ≤ cesParams f) ∧ (["a", "b"].map cesParams).sum = 1 ∧ cesParams "phi" ≠ 0 := by
  refine ⟨?_, ?_, ?_⟩
  · intro f hf
    unfold cesParams
    split_ifs <;> norm_num
  · simp [cesParams]; norm_num
  · simp [cesParams]

/-- C50: a log_ces factor, a constant factor and a custom function of factor "b" and the observed factor "o". -/
noncomputable def fns : Dict TransFn := [("a", .builtin "log_ces"), ("b", .builtin "constant"), ("c", .custom ["b", "o"] ["beta"] (fun d _ p => (d.map Prod.snd).sum + (p.map Prod.snd).sum))]

theorem fns_ok (x : String → ℝ) : transitionFunction ["a", "b", "c", "o"] fns
    [("a", (paramsLogCes ["a", "b", "c", "o"]).map (fun _ => 1)), ("b", []), ("c", [7])] (["a", "b", "c", "o"].map x) =
    .ok [logCesValue ["a", "b", "c", "o"] x (fun _ => 1), x "b", x "b" + (x "o" + 0) + (7 + 0)] := by
  refine (C50_combined_function (fns := fns) (by simp [fns]) x (fun f _ => if f = "a" then 1 else 7) ?_ ?_).trans ?_
  · simp only [fns, List.mem_cons, List.not_mem_nil, or_false, forall_eq_or_imp, forall_eq, paramNamesOf, builtinParamNames]
    refine ⟨rfl, rfl, rfl⟩
  · simp only [fns, List.mem_cons, List.not_mem_nil, or_false, forall_eq_or_imp, forall_eq, TransFn.Usable]
    refine ⟨⟨rfl, fun _ => by simp⟩, ⟨rfl, fun h => by simp at h⟩, by simp⟩
  · simp [fns, nextValue]

end Ex

end Skill
