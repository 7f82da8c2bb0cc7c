import Verif.Props.LogCesPhi
import Mathlib.Analysis.Convex.SpecificFunctions.Pow
/- C145: which changes of location and scale of the factors log_ces can describe. -/
namespace Skill

variable {n : ℕ} {gamma gamma' s a : Fin n → ℝ} {phi phi' s0 a0 : ℝ}

/-- A power that is an affine function is constant or the identity. -/
theorem power_affine {p k : ℝ} (hp : p ≠ 0) (hk : 0 < k) (h : ∀ r, 0 < r → k ^ p + (k + 2 * r) ^ p = 2 * (k + r) ^ p) : p = 1 := by
  rcases lt_or_gt_of_ne hp with hn | hpos
  · exfalso
    obtain ⟨c, hc1, hc⟩ : ∃ c : ℝ, 1 < c ∧ c ^ p = 1 / 4 := by
      refine ⟨(1 / 4 : ℝ) ^ p⁻¹, Real.one_lt_rpow_of_pos_of_lt_one_of_neg (by norm_num) (by norm_num) (inv_lt_zero.mpr hn), ?_⟩
      rw [← Real.rpow_mul (by norm_num), inv_mul_cancel₀ hp, Real.rpow_one]
    have hr := h (k * (c - 1)) (mul_pos hk (by linarith))
    have e : k + k * (c - 1) = k * c := by ring
    rw [e, Real.mul_rpow hk.le (by linarith), hc] at hr
    have h1 : 0 < k ^ p := Real.rpow_pos_of_pos hk p
    have h2 : 0 ≤ (k + 2 * (k * (c - 1))) ^ p := Real.rpow_nonneg (by nlinarith) p
    linarith
  · have hr := h 1 one_pos
    have m : (1 / 2 : ℝ) * k + (1 / 2 : ℝ) * (k + 2 * 1) = k + 1 := by ring
    have m1 : k ∈ Set.Ici (0 : ℝ) := hk.le
    have m2 : k + 2 * 1 ∈ Set.Ici (0 : ℝ) := by show (0 : ℝ) ≤ _; linarith
    have m3 : k ≠ k + 2 * 1 := fun hcon => by linarith
    rcases lt_trichotomy p 1 with hlt | heq | hgt
    · exfalso
      have hs : (1 / 2 : ℝ) * k ^ p + (1 / 2 : ℝ) * (k + 2 * 1) ^ p < ((1 / 2 : ℝ) * k + (1 / 2 : ℝ) * (k + 2 * 1)) ^ p :=
        (Real.strictConcaveOn_rpow hpos hlt).2 m1 m2 m3 (by norm_num) (by norm_num) (by norm_num)
      rw [m] at hs
      generalize (k + 2 * 1) ^ p = u at hr hs
      generalize (k + 1) ^ p = w at hr hs
      linarith
    · exact heq
    · exfalso
      have hs : ((1 / 2 : ℝ) * k + (1 / 2 : ℝ) * (k + 2 * 1)) ^ p < (1 / 2 : ℝ) * k ^ p + (1 / 2 : ℝ) * (k + 2 * 1) ^ p :=
        (strictConvexOn_rpow hgt).2 m1 m2 m3 (by norm_num) (by norm_num) (by norm_num)
      rw [m] at hs
      generalize (k + 2 * 1) ^ p = u at hr hs
      generalize (k + 1) ^ p = w at hr hs
      linarith

theorem exp_affine {A B q : ℝ} (hB : 0 < B) (h : ∀ t : ℝ, A * (Real.exp (q * t) - 1) = B * (Real.exp t - 1)) : q = 1 ∧ A = B := by
  have h1 := h 1
  have h2 := h 2
  have e1 : Real.exp (2 : ℝ) = Real.exp 1 * Real.exp 1 := by rw [← Real.exp_add]; norm_num
  have e2 : Real.exp (q * 2) = Real.exp (q * 1) * Real.exp (q * 1) := by rw [← Real.exp_add]; ring_nf
  have hgt : 1 < Real.exp (1 : ℝ) := Real.one_lt_exp_iff.mpr one_pos
  rw [e1, e2] at h2
  have hpos : 0 < B * (Real.exp 1 - 1) := mul_pos hB (by linarith)
  have key : B * (Real.exp 1 - 1) * (Real.exp (q * 1) + 1) = B * (Real.exp 1 - 1) * (Real.exp 1 + 1) := by
    rw [← h1]
    have : A * (Real.exp (q * 1) * Real.exp (q * 1) - 1) = A * (Real.exp (q * 1) - 1) * (Real.exp (q * 1) + 1) := by ring
    rw [← this, h2, h1]
    ring
  have hq : Real.exp (q * 1) = Real.exp 1 := by
    have := mul_left_cancel₀ hpos.ne' key
    linarith
  have hq1 : q = 1 := by
    have := Real.exp_injective hq
    linarith
  refine ⟨hq1, ?_⟩
  rw [hq] at h1
  exact mul_right_cancel₀ (by linarith : Real.exp 1 - 1 ≠ 0) h1

/-- The claim about log_ces as an equation between powers of sums. -/
theorem ces_power (hg : ∀ i, 0 < gamma i) (h1 : ∑ i, gamma i = 1) (hg' : ∀ i, 0 ≤ gamma' i) (h1' : ∑ i, gamma' i = 1) (hphi' : phi' ≠ 0)
    (h : ∀ x : Fin n → ℝ, ∀ y y' : ℝ, logCes (List.ofFn x) (List.ofFn gamma ++ [phi]) = .ok y →
      logCes (List.ofFn (fun i => s i * x i + a i)) (List.ofFn gamma' ++ [phi']) = .ok y' → y' = s0 * y + a0) (x : Fin n → ℝ) :
    cesSum (fun i => s i * x i + a i) gamma' phi' = cesSum x gamma phi ^ (s0 * phi' / phi) * Real.exp (phi' * a0) := by
  have hx := h x _ _ (logCes_ofFn (fun i => (hg i).le) phi) (logCes_ofFn hg' phi')
  have p1 := cesSum_pos (x := x) (fun i => (hg i).le) h1 phi
  have p2 := cesSum_pos (x := fun i => s i * x i + a i) hg' h1' phi'
  rw [Real.rpow_def_of_pos p1, ← Real.exp_add, ← Real.exp_log p2]
  congr 1
  have : Real.log (cesSum (fun i => s i * x i + a i) gamma' phi') = (Real.log (cesSum (fun i => s i * x i + a i) gamma' phi') * (1 / phi')) * phi' := by field_simp
  rw [this, hx]
  ring

/-- Changing one argument of a sum of functions of one argument each -/
theorem sum_update_one (f : Fin n → ℝ → ℝ) (x : Fin n → ℝ) (i : Fin n) (t : ℝ) : ∑ l, f l (Function.update x i t l) = ∑ l, f l (x l) + (f i t - f i (x i)) := by
  have h : ∑ l, (f l (Function.update x i t l) - f l (x l)) = f i t - f i (x i) := by
    rw [Finset.sum_eq_single i]
    · rw [Function.update_self]
    · intro l _ hl
      rw [Function.update_of_ne hl, sub_self]
    · intro hcon
      exact absurd (Finset.mem_univ i) hcon
  rw [Finset.sum_sub_distrib] at h
  linarith

/-- **C145**, scales: assume that a log_ces function with positive weights describes the next value of a factor, that all factors are measured on a different location and scale (factor i on the scale s i and with the location a i; the
next value on the scale s0 and with the location a0), and that a log_ces function still describes the system. Then all scales are the same. The new parameter phi is the old one divided by that scale. The weights follow from the locations. -/
theorem C145_scales (h2 : 2 ≤ n) (hg : ∀ i, 0 < gamma i) (h1 : ∑ i, gamma i = 1) (hphi : phi ≠ 0) (hg' : ∀ i, 0 ≤ gamma' i) (h1' : ∑ i, gamma' i = 1) (hphi' : phi' ≠ 0) (hs0 : s0 ≠ 0)
    (h : ∀ x : Fin n → ℝ, ∀ y y' : ℝ, logCes (List.ofFn x) (List.ofFn gamma ++ [phi]) = .ok y →
      logCes (List.ofFn (fun i => s i * x i + a i)) (List.ofFn gamma' ++ [phi']) = .ok y' → y' = s0 * y + a0) :
    (∀ i, s i = s0) ∧ phi' = phi / s0 ∧ ∀ i, gamma' i * Real.exp (phi' * a i) = gamma i * Real.exp (phi' * a0) := by
  have hF := ces_power hg h1 hg' h1' hphi' h
  have hFs : ∀ x : Fin n → ℝ, ∀ i t, cesSum (fun l => s l * Function.update x i t l + a l) gamma' phi' =
      cesSum (fun l => s l * x l + a l) gamma' phi' + (gamma' i * Real.exp ((s i * t + a i) * phi') - gamma' i * Real.exp ((s i * x i + a i) * phi')) :=
    fun x i t => sum_update_one (fun l z => gamma' l * Real.exp ((s l * z + a l) * phi')) x i t
  have hGs : ∀ x : Fin n → ℝ, ∀ i t, cesSum (Function.update x i t) gamma phi = cesSum x gamma phi + (gamma i * Real.exp (t * phi) - gamma i * Real.exp (x i * phi)) :=
    fun x i t => sum_update_one (fun l z => gamma l * Real.exp (z * phi)) x i t
  have hG0 : cesSum (fun _ => 0) gamma phi = 1 := by
    simp only [cesSum, zero_mul, Real.exp_zero, mul_one]
    exact h1
  have hC : 0 < Real.exp (phi' * a0) := Real.exp_pos _
  have hp : s0 * phi' / phi = 1 := by
    refine power_affine (k := 1) (div_ne_zero (mul_ne_zero hs0 hphi') hphi) one_pos (fun r hr => ?_)
    let i : Fin n := ⟨0, by omega⟩
    let j : Fin n := ⟨1, by omega⟩
    have hij : j ≠ i := by
      intro hcon
      have := congrArg Fin.val hcon
      simp [i, j] at this
    have hval : ∀ l, gamma l * Real.exp (Real.log (1 + r / gamma l) / phi * phi) - gamma l * Real.exp (0 * phi) = r := fun l => by
      rw [div_mul_cancel₀ _ hphi, Real.exp_log (by have := div_pos hr (hg l); linarith), zero_mul, Real.exp_zero]
      have := (hg l).ne'
      field_simp
      ring
    have f0 := hF (fun _ => 0)
    have fi := hF (Function.update (fun _ => 0) i (Real.log (1 + r / gamma i) / phi))
    have fj := hF (Function.update (fun _ => 0) j (Real.log (1 + r / gamma j) / phi))
    have fij := hF (Function.update (Function.update (fun _ => 0) i (Real.log (1 + r / gamma i) / phi)) j (Real.log (1 + r / gamma j) / phi))
    rw [hFs (Function.update _ _ _), hGs (Function.update _ _ _), hGs, Function.update_of_ne hij, hG0, hval, hval] at fij
    rw [hFs, hGs, hG0, hval] at fj
    rw [hGs, hG0, hval] at fi
    rw [hG0] at f0
    rw [fi] at fij
    rw [f0] at fj
    have e : (1 + r + r : ℝ) = 1 + 2 * r := by ring
    rw [e] at fij
    have : ((1 : ℝ) ^ (s0 * phi' / phi) + (1 + 2 * r) ^ (s0 * phi' / phi)) * Real.exp (phi' * a0) = (2 * (1 + r) ^ (s0 * phi' / phi)) * Real.exp (phi' * a0) := by
      linear_combination fj - fij
    exact mul_right_cancel₀ hC.ne' this
  have hi : ∀ i, phi' * s i / phi = 1 ∧ gamma' i * Real.exp (phi' * a i) = gamma i * Real.exp (phi' * a0) := fun i => by
    refine exp_affine (mul_pos (hg i) hC) (fun t => ?_)
    have f0 := hF (fun _ => 0)
    have fi := hF (Function.update (fun _ => 0) i (t / phi))
    rw [hFs, hGs, hG0, hp, Real.rpow_one] at fi
    rw [hG0, hp, Real.rpow_one] at f0
    rw [f0, div_mul_cancel₀ _ hphi, zero_mul, Real.exp_zero] at fi
    have e1 : Real.exp ((s i * (t / phi) + a i) * phi') = Real.exp (phi' * a i) * Real.exp (phi' * s i / phi * t) := by
      rw [← Real.exp_add]
      congr 1
      ring
    have e2 : Real.exp ((s i * 0 + a i) * phi') = Real.exp (phi' * a i) := by
      congr 1
      ring
    rw [e1, e2] at fi
    linear_combination fi
  refine ⟨fun i => ?_, ?_, fun i => (hi i).2⟩
  · have k1 := (div_eq_one_iff_eq hphi).mp (hi i).1
    have k2 := (div_eq_one_iff_eq hphi).mp hp
    exact mul_left_cancel₀ hphi' (by rw [k1, mul_comm, k2])
  · have k2 := (div_eq_one_iff_eq hphi).mp hp
    rw [← k2]
    field_simp

/-- **C145**, known location and scale: if the factors keep their location and scale, so does the next value, and the parameters are the same. -/
theorem C145_known_location_and_scale (h2 : 2 ≤ n) (hg : ∀ i, 0 < gamma i) (h1 : ∑ i, gamma i = 1) (hphi : phi ≠ 0) (hg' : ∀ i, 0 ≤ gamma' i) (h1' : ∑ i, gamma' i = 1) (hphi' : phi' ≠ 0) (hs0 : s0 ≠ 0)
    (h : ∀ x : Fin n → ℝ, ∀ y y' : ℝ, logCes (List.ofFn x) (List.ofFn gamma ++ [phi]) = .ok y →
      logCes (List.ofFn x) (List.ofFn gamma' ++ [phi']) = .ok y' → y' = s0 * y + a0) :
    s0 = 1 ∧ a0 = 0 ∧ gamma' = gamma ∧ phi' = phi := by
  obtain ⟨hs, hph, hw⟩ := C145_scales (s := fun _ => 1) (a := fun _ => 0) h2 hg h1 hphi hg' h1' hphi' hs0 (fun x y y' hy hy' => by
    have e : (fun i => (1 : ℝ) * x i + 0) = x := funext (fun i => by ring)
    rw [e] at hy'
    exact h x y y' hy hy')
  have hs1 : s0 = 1 := (hs ⟨0, by omega⟩).symm
  subst hs1
  have hw : ∀ i, gamma' i = gamma i * Real.exp (phi' * a0) := fun i => by
    have := hw i
    rwa [mul_zero, Real.exp_zero, mul_one] at this
  have hC : Real.exp (phi' * a0) = 1 := by
    have : ∑ i, gamma' i = (∑ i, gamma i) * Real.exp (phi' * a0) := by
      rw [Finset.sum_mul]
      exact Finset.sum_congr rfl (fun i _ => hw i)
    rw [h1, h1', one_mul] at this
    exact this.symm
  refine ⟨rfl, ?_, funext (fun i => by rw [hw, hC, mul_one]), by rw [hph, div_one]⟩
  have := (Real.exp_eq_one_iff _).mp hC
  exact (mul_eq_zero.mp this).resolve_left hphi'

/-- **C145**, locations: a common change of the scale and any changes of the locations of the factors can be described by log_ces with other parameters and another location of the next value. -/
theorem C145_locations (hg : ∀ i, 0 < gamma i) (h1 : ∑ i, gamma i = 1) (hphi : phi ≠ 0) (hs0 : s0 ≠ 0) (a : Fin n → ℝ) : ∃ gamma' : Fin n → ℝ, ∃ a0 : ℝ, (∀ i, 0 < gamma' i) ∧ ∑ i, gamma' i = 1 ∧
    ∀ x : Fin n → ℝ, ∃ y, logCes (List.ofFn x) (List.ofFn gamma ++ [phi]) = .ok y ∧ logCes (List.ofFn (fun i => s0 * x i + a i)) (List.ofFn gamma' ++ [phi / s0]) = .ok (s0 * y + a0) := by
  have hZ : 0 < cesSum (fun i => -a i) gamma (phi / s0) := cesSum_pos (fun i => (hg i).le) h1 _
  set Z := cesSum (fun i => -a i) gamma (phi / s0) with hZdef
  have hg' : ∀ i, 0 < gamma i * Real.exp (-a i * (phi / s0)) / Z := fun i => div_pos (mul_pos (hg i) (Real.exp_pos _)) hZ
  refine ⟨fun i => gamma i * Real.exp (-a i * (phi / s0)) / Z, -Real.log Z * (s0 / phi), hg', ?_, fun x => ⟨_, logCes_ofFn (fun i => (hg i).le) phi, ?_⟩⟩
  · rw [← Finset.sum_div]
    exact div_self hZ.ne'
  · rw [logCes_ofFn (fun i => (hg' i).le)]
    have hpos := cesSum_pos (x := x) (fun i => (hg i).le) h1 phi
    have e : cesSum (fun i => s0 * x i + a i) (fun i => gamma i * Real.exp (-a i * (phi / s0)) / Z) (phi / s0) = cesSum x gamma phi / Z := by
      unfold cesSum
      rw [Finset.sum_div]
      refine Finset.sum_congr rfl (fun i _ => ?_)
      have : Real.exp (x i * phi) = Real.exp (-a i * (phi / s0)) * Real.exp ((s0 * x i + a i) * (phi / s0)) := by
        rw [← Real.exp_add]
        congr 1
        field_simp
        ring
      rw [this]
      ring
    rw [e, Real.log_div hpos.ne' hZ.ne']
    congr 1
    field_simp
    ring

/-- **C145**, functions without known location and scale: linear can describe every change of the locations and scales of all factors and of the next value, also of single ones. -/
theorem C145_linear (beta : Fin n → ℝ) (constant : ℝ) (hs : ∀ i, s i ≠ 0) (a : Fin n → ℝ) (s0 a0 : ℝ) : ∃ beta' : Fin n → ℝ, ∃ constant' : ℝ, ∀ x : Fin n → ℝ, ∃ y, linear (List.ofFn x) (List.ofFn beta ++ [constant]) = .ok y ∧
    linear (List.ofFn (fun i => s i * x i + a i)) (List.ofFn beta' ++ [constant']) = .ok (s0 * y + a0) := by
  have hlin : ∀ (x b : Fin n → ℝ) (c : ℝ), linear (List.ofFn x) (List.ofFn b ++ [c]) = .ok (∑ i, x i * b i + c) := fun x b c => by
    unfold linear
    rw [lastParam_append, List.dropLast_concat]
    show (jnpDot (List.ofFn x) (List.ofFn b) >>= fun d => pure (d + c)) = _
    unfold jnpDot
    rw [if_pos (by simp)]
    have : List.zipWith (· * ·) (List.ofFn x) (List.ofFn b) = List.ofFn (fun i => x i * b i) := by
      refine List.ext_getElem (by simp) (fun i h1 h2 => ?_)
      simp only [List.getElem_zipWith, List.getElem_ofFn]
    rw [this, List.sum_ofFn]
    rfl
  refine ⟨fun i => s0 * beta i / s i, s0 * constant + a0 - ∑ i, a i * (s0 * beta i / s i), fun x => ⟨_, hlin x beta constant, ?_⟩⟩
  rw [hlin]
  have e : ∑ i, (s i * x i + a i) * (s0 * beta i / s i) = s0 * ∑ i, x i * beta i + ∑ i, a i * (s0 * beta i / s i) := by
    rw [Finset.mul_sum, ← Finset.sum_add_distrib]
    refine Finset.sum_congr rfl (fun i _ => ?_)
    have := hs i
    field_simp
  rw [e]
  congr 1
  ring

/-- log_ces_general as a formula -/
theorem logCesGeneral_ofFn (hg : ∀ i, 0 ≤ gamma i) (x sigma : Fin n → ℝ) (tfp : ℝ) :
    logCesGeneral (List.ofFn x) (List.ofFn gamma ++ List.ofFn sigma ++ [tfp]) = .ok (Real.log (∑ i, gamma i * Real.exp (x i * sigma i)) * tfp) := by
  have hz : List.zipWith (· * ·) (List.ofFn x) (List.ofFn sigma) = List.ofFn (fun i => x i * sigma i) := by
    refine List.ext_getElem (by simp) (fun i h1 h2 => ?_)
    simp only [List.getElem_zipWith, List.getElem_ofFn]
  have hsum : (List.zipWith expLogWeight (List.ofFn gamma) (List.ofFn (fun i => x i * sigma i))).sum = ∑ i, gamma i * Real.exp (x i * sigma i) := by
    have : List.zipWith expLogWeight (List.ofFn gamma) (List.ofFn (fun i => x i * sigma i)) = List.ofFn (fun i => gamma i * Real.exp (x i * sigma i)) := by
      refine List.ext_getElem (by simp) (fun i h1 h2 => ?_)
      simp only [List.getElem_zipWith, List.getElem_ofFn]
      unfold expLogWeight
      split_ifs with h0
      · rw [h0, zero_mul]
      · rw [Real.exp_add, Real.exp_log (lt_of_le_of_ne (hg _) (Ne.symm h0))]
    rw [this, List.sum_ofFn]
  have t1 : (List.ofFn gamma ++ List.ofFn sigma ++ [tfp]).take n = List.ofFn gamma := by
    rw [List.append_assoc, List.take_append_of_le_length (by simp), List.take_of_length_le (by simp)]
  have t2 : ((List.ofFn gamma ++ List.ofFn sigma ++ [tfp]).take (2 * n)).drop n = List.ofFn sigma := by
    rw [List.take_append_of_le_length (by simp; omega), List.take_of_length_le (by simp; omega), List.drop_append_of_le_length (by simp), List.drop_of_length_le (by simp), List.nil_append]
  unfold logCesGeneral
  rw [lastParam_append, List.length_ofFn]
  show (if n = (((List.ofFn gamma ++ List.ofFn sigma ++ [tfp]).take (2 * n)).drop n).length then weightedLogsumexp ((List.ofFn gamma ++ List.ofFn sigma ++ [tfp]).take n)
    (List.zipWith (· * ·) (List.ofFn x) (((List.ofFn gamma ++ List.ofFn sigma ++ [tfp]).take (2 * n)).drop n)) >>= fun u => pure (u * tfp) else .error .typeError) = _
  rw [t1, t2]
  show (if n = (List.ofFn sigma).length then weightedLogsumexp (List.ofFn gamma) (List.zipWith (· * ·) (List.ofFn x) (List.ofFn sigma)) >>= fun u => pure (u * tfp) else .error .typeError) = _
  rw [if_pos (by simp), hz]
  unfold weightedLogsumexp
  rw [if_pos (by simp), hsum]
  rfl

/-- **C145**, functions without known location and scale: the same for log_ces_general with positive weights. -/
theorem C145_log_ces_general (hn : 0 < n) (hg : ∀ i, 0 < gamma i) (sigma : Fin n → ℝ) {tfp : ℝ} (htfp : tfp ≠ 0) (hs : ∀ i, s i ≠ 0) (a : Fin n → ℝ) {s0 : ℝ} (hs0 : s0 ≠ 0) (a0 : ℝ) :
    ∃ gamma' sigma' : Fin n → ℝ, ∃ tfp' : ℝ, (∀ i, 0 < gamma' i) ∧ ∀ x : Fin n → ℝ, ∃ y, logCesGeneral (List.ofFn x) (List.ofFn gamma ++ List.ofFn sigma ++ [tfp]) = .ok y ∧
      logCesGeneral (List.ofFn (fun i => s i * x i + a i)) (List.ofFn gamma' ++ List.ofFn sigma' ++ [tfp']) = .ok (s0 * y + a0) := by
  have hg' : ∀ i, 0 < gamma i * Real.exp (-a i * (sigma i / s i)) * Real.exp (a0 / (s0 * tfp)) := fun i => mul_pos (mul_pos (hg i) (Real.exp_pos _)) (Real.exp_pos _)
  refine ⟨fun i => gamma i * Real.exp (-a i * (sigma i / s i)) * Real.exp (a0 / (s0 * tfp)), fun i => sigma i / s i, s0 * tfp, hg', fun x => ⟨_, logCesGeneral_ofFn (fun i => (hg i).le) x sigma tfp, ?_⟩⟩
  rw [logCesGeneral_ofFn (fun i => (hg' i).le)]
  have e : ∑ i, gamma i * Real.exp (-a i * (sigma i / s i)) * Real.exp (a0 / (s0 * tfp)) * Real.exp ((s i * x i + a i) * (sigma i / s i)) = (∑ i, gamma i * Real.exp (x i * sigma i)) * Real.exp (a0 / (s0 * tfp)) := by
    rw [Finset.sum_mul]
    refine Finset.sum_congr rfl (fun i _ => ?_)
    have : Real.exp (x i * sigma i) = Real.exp (-a i * (sigma i / s i)) * Real.exp ((s i * x i + a i) * (sigma i / s i)) := by
      rw [← Real.exp_add]
      congr 1
      have := hs i
      field_simp
      ring
    rw [this]
    ring
  have hpos : 0 < ∑ i, gamma i * Real.exp (x i * sigma i) := Finset.sum_pos (fun i _ => mul_pos (hg i) (Real.exp_pos _)) ⟨⟨0, hn⟩, Finset.mem_univ _⟩
  rw [e, Real.log_mul hpos.ne' (Real.exp_pos _).ne', Real.log_exp]
  congr 1
  field_simp

namespace Ex

/-- C145 is not vacuous: two factors on a scale of 2 and with different locations. The hypotheses of `C145_scales` hold (with s0 = 2), so all scales have to be 2; a linear function with the same weights can describe different scales. -/
theorem C145_example : (∃ gamma' : Fin 2 → ℝ, ∃ a0 : ℝ, (∀ i, 0 < gamma' i) ∧ ∑ i, gamma' i = 1 ∧ ∀ x : Fin 2 → ℝ, ∀ y y' : ℝ, logCes (List.ofFn x) (List.ofFn ![1 / 4, 3 / 4] ++ [-1]) = .ok y →
      logCes (List.ofFn (fun i => 2 * x i + ![5, -3] i)) (List.ofFn gamma' ++ [-1 / 2]) = .ok y' → y' = 2 * y + a0) ∧
    (¬ ∃ gamma' : Fin 2 → ℝ, ∃ phi' a0 : ℝ, (∀ i, 0 ≤ gamma' i) ∧ ∑ i, gamma' i = 1 ∧ phi' ≠ 0 ∧ ∀ x : Fin 2 → ℝ, ∀ y y' : ℝ, logCes (List.ofFn x) (List.ofFn ![1 / 4, 3 / 4] ++ [-1]) = .ok y →
      logCes (List.ofFn (fun i => ![2, 3] i * x i + ![5, -3] i)) (List.ofFn gamma' ++ [phi']) = .ok y' → y' = 2 * y + a0) ∧
    ∃ beta' : Fin 2 → ℝ, ∃ constant' : ℝ, ∀ x : Fin 2 → ℝ, ∃ y, linear (List.ofFn x) (List.ofFn ![1 / 4, 3 / 4] ++ [0]) = .ok y ∧ linear (List.ofFn (fun i => ![2, 3] i * x i + ![5, -3] i)) (List.ofFn beta' ++ [constant']) = .ok (2 * y + 7) := by
  have hg : ∀ i, 0 < (![1 / 4, 3 / 4] : Fin 2 → ℝ) i := by intro i; fin_cases i <;> norm_num
  have h1 : ∑ i, (![1 / 4, 3 / 4] : Fin 2 → ℝ) i = 1 := by simp only [Fin.sum_univ_two, Matrix.cons_val_zero, Matrix.cons_val_one]; norm_num
  refine ⟨?_, ?_, C145_linear _ _ (by intro i; fin_cases i <;> norm_num) _ _ _⟩
  · obtain ⟨gamma', a0, hg', h1', h⟩ := C145_locations hg h1 (phi := -1) (s0 := 2) (by norm_num) (by norm_num) ![5, -3]
    refine ⟨gamma', a0, hg', h1', fun x y y' hy hy' => ?_⟩
    obtain ⟨z, hz, hz'⟩ := h x
    rw [← Except.ok.inj (hz.symm.trans hy)]
    exact (Except.ok.inj (hz'.symm.trans hy')).symm
  · rintro ⟨gamma', phi', a0, hg', h1', hphi', h⟩
    have := (C145_scales le_rfl hg h1 (by norm_num) hg' h1' hphi' (by norm_num) h).1 1
    norm_num at this

end Ex
end Skill
