import Verif.Model.DebugData
import Verif.Spec.Debug
import Verif.Props.Filter
import Verif.Lemmas.ParamsIndex
import Verif.Props.ParseParams
import Mathlib.Data.List.Sort
/- C51-C55: process_debug_data.py and filtered_states.py. -/
namespace Skill
open Spec
variable {nObs nMix n : ℕ}

/-! ### C52 -/

/-- Entry of a list that consists of blocks of length `k`. -/
theorem flatten_getElem? {β : Type} {xss : List (List β)} {k : Nat} (hk : ∀ xs ∈ xss, xs.length = k) {a b : Nat} {xs : List β} (hxs : xss[a]? = some xs) (hb : b < k) :
    xss.flatten[a * k + b]? = xs[b]? := by
  induction xss generalizing a with
  | nil => simp at hxs
  | cons ys xss ih =>
    have hy := hk ys List.mem_cons_self
    rw [List.flatten_cons]
    cases a with
    | zero =>
      simp only [List.getElem?_cons_zero, Option.some.injEq] at hxs
      subst hxs
      rw [Nat.zero_mul, Nat.zero_add, List.getElem?_append_left (by omega)]
    | succ a =>
      simp only [List.getElem?_cons_succ] at hxs
      rw [List.getElem?_append_right (by rw [hy, Nat.succ_mul]; omega), ← ih (fun z hz => hk z (List.mem_cons_of_mem _ hz)) hxs]
      congr 1
      rw [hy, Nat.succ_mul]; omega

theorem flattenMixtures_getElem? {β : Type} (data : Fin nObs → Fin nMix → β) (i : Fin nObs) (e : Fin nMix) :
    (flattenMixtures data)[i.val * nMix + e.val]? = some (data i e, e.val) := by
  unfold flattenMixtures
  rw [List.flatMap_def]
  rw [flatten_getElem? (k := nMix) (xs := (List.finRange nMix).map (fun e => (data i e, e.val)))]
  · simp
  · simp
  · simp
  · exact e.isLt

theorem flattenMixtures_length {β : Type} (data : Fin nObs → Fin nMix → β) : (flattenMixtures data).length = nObs * nMix := by
  unfold flattenMixtures
  simp [List.length_flatMap, List.map_const']

/-- The rows of a debug DataFrame: the row with number `k * (nObs * nMix) + i * nMix + e` belongs to update k, individual i and mixture element e. -/
theorem debugRows {β : Type} {data : List (Fin nObs → Fin nMix → β)} {u : List URow} {out : List (DebugRow β)} (hlen : data.length = u.length)
    (hout : out = ((u.zip data).map (fun x => debugBlock x.1 x.2)).flatten) :
    out.length = u.length * (nObs * nMix) ∧
    ∀ (k : Nat) (row : URow) (d : Fin nObs → Fin nMix → β) (i : Fin nObs) (e : Fin nMix), u[k]? = some row → data[k]? = some d →
      out[k * (nObs * nMix) + (i.val * nMix + e.val)]? = some { value := d i e, mixture := e.val, period := row.period, id := i.val * nMix + e.val, measurement := row.var } := by
  have hblock : ∀ xs ∈ (u.zip data).map (fun x => debugBlock x.1 x.2), xs.length = nObs * nMix := by
    intro xs hxs
    obtain ⟨x, _, rfl⟩ := List.mem_map.mp hxs
    unfold debugBlock
    rw [List.length_map, List.length_zipIdx, flattenMixtures_length]
  constructor
  · rw [hout, List.length_flatten, List.map_congr_left (g := fun _ => nObs * nMix) hblock]
    simp [hlen, Function.comp_def, List.map_const']
  · intro k row d i e hrow hd
    have hlt : i.val * nMix + e.val < nObs * nMix := by
      have h1 := i.isLt
      have h2 := e.isLt
      calc i.val * nMix + e.val < i.val * nMix + nMix := by omega
        _ = (i.val + 1) * nMix := by rw [Nat.succ_mul]
        _ ≤ nObs * nMix := Nat.mul_le_mul_right _ h1
    rw [hout, flatten_getElem? hblock (xs := debugBlock row d) _ hlt]
    · unfold debugBlock
      rw [List.getElem?_map, List.getElem?_zipIdx, flattenMixtures_getElem?]
      simp
    · rw [List.getElem?_map, show (u.zip data)[k]? = some (row, d) from List.getElem?_zip_eq_some.mpr ⟨hrow, hd⟩]
      rfl


/-- C52 (partial): with one mixture element all rows of the debug data carry the individual's number as id, next to the right value, period and measurement; the rows of
all_contributions always do. What is missing: several mixture elements, for which it is false (`C52_counterexample`). -/
theorem C52_ids_partial {outs : List (StepOut nObs nMix n)} {u : List URow} (hmix : nMix = 1) (hlen : outs.length = u.length) (hu : u ≠ []) :
    ∃ post res sds contributions,
      createPostUpdateStates (outs.map (fun o => o.states)) u = .ok post ∧ processResiduals (outs.map (fun o => o.residuals)) u = .ok res ∧
      processResiduals (outs.map (fun o => o.residualSds)) u = .ok sds ∧ processAllContributions (outs.map (fun o => o.loglikes)) u = .ok contributions ∧
      post.length = u.length * nObs ∧ res.length = u.length * nObs ∧ sds.length = u.length * nObs ∧ contributions.length = u.length * nObs ∧
      ∀ (k : Nat) (row : URow) (o : StepOut nObs nMix n) (i : Fin nObs) (e : Fin nMix), u[k]? = some row → outs[k]? = some o →
        post[k * nObs + i.val]? = some { value := o.states i e, mixture := 0, period := row.period, id := i.val, measurement := row.var } ∧
        res[k * nObs + i.val]? = some { value := o.residuals i e, mixture := 0, period := row.period, id := i.val, measurement := row.var } ∧
        sds[k * nObs + i.val]? = some { value := o.residualSds i e, mixture := 0, period := row.period, id := i.val, measurement := row.var } ∧
        contributions[k * nObs + i.val]? = some { contribution := o.loglikes i, measurement := row.var, period := row.period, id := i.val } := by
  subst hmix
  have houts : outs ≠ [] := by
    intro h; rw [h] at hlen; exact hu (List.length_eq_zero_iff.mp hlen.symm)
  have hzip : ∀ {γ : Type} (f : StepOut nObs 1 n → γ), u.zip (outs.map f) ≠ [] := by
    intro γ f h
    have := congrArg List.length h
    rw [List.length_zip, List.length_map, hlen, min_self] at this
    exact hu (List.length_eq_zero_iff.mp this)
  have hb : ∀ {γ : Type} (f : StepOut nObs 1 n → Fin nObs → Fin 1 → γ), ¬ ((u.zip (outs.map f)).map (fun x => debugBlock x.1 x.2) = []) := by
    intro γ f; rw [List.map_eq_nil_iff]; exact hzip f
  have hrows := fun {γ : Type} (f : StepOut nObs 1 n → Fin nObs → Fin 1 → γ) => debugRows (data := outs.map f) (u := u) (by rw [List.length_map, hlen]) rfl
  have hblk : ∀ xs ∈ (u.zip (outs.map (fun o => o.loglikes))).map (fun x => (List.finRange nObs).map (fun i => ({ contribution := x.2 i, measurement := x.1.var, period := x.1.period, id := i.val } : ContributionRow))), xs.length = nObs := by
    intro xs hxs
    obtain ⟨x, _, rfl⟩ := List.mem_map.mp hxs
    simp
  have hres : ∀ f : StepOut nObs 1 n → Fin nObs → Fin 1 → Option ℝ, processResiduals (outs.map f) u = .ok ((u.zip (outs.map f)).map (fun x => debugBlock x.1 x.2)).flatten := by
    intro f
    unfold processResiduals
    rw [if_neg (by simpa using houts)]
    exact if_neg (hb _)
  refine ⟨_, _, _, _, if_neg (hb _), hres _, hres _, if_neg (by rw [List.map_eq_nil_iff]; exact hzip _), ?_, ?_, ?_, ?_, ?_⟩
  · rw [(hrows _).1, Nat.mul_one]
  · rw [(hrows _).1, Nat.mul_one]
  · rw [(hrows _).1, Nat.mul_one]
  · rw [List.length_flatten, List.map_congr_left (g := fun _ => nObs) hblk]
    simp [hlen, Function.comp_def, List.map_const']
  · intro k row o i e hrow ho
    have key := fun {γ : Type} (f : StepOut nObs 1 n → Fin nObs → Fin 1 → γ) => (hrows f).2 k row (f o) i e hrow (by rw [List.getElem?_map, ho]; rfl)
    have he : e.val = 0 := by omega
    simp only [he, Nat.mul_one, Nat.add_zero] at key
    refine ⟨key _, key _, key _, ?_⟩
    rw [flatten_getElem? hblk (xs := (List.finRange nObs).map (fun i => ({ contribution := o.loglikes i, measurement := row.var, period := row.period, id := i.val } : ContributionRow))) _ i.isLt]
    · simp
    · rw [List.getElem?_map, show (u.zip (outs.map (fun o => o.loglikes)))[k]? = some (row, o.loglikes) from List.getElem?_zip_eq_some.mpr ⟨hrow, by rw [List.getElem?_map, ho]; rfl⟩]
      rfl

/-- C52: with two mixture elements, the rows of the second of two individuals have the ids 2 and 3; the second row of the first individual has the id of the second one. -/
theorem C52_counterexample (row : URow) (r : Fin 2 → Fin 2 → Option ℝ) :
    (processResiduals [r] [row]).map (fun rows => rows.map (fun x => (x.value, x.id))) = .ok [(r 0 0, 0), (r 0 1, 1), (r 1 0, 2), (r 1 1, 3)] := by
  simp [processResiduals, debugBlock, flattenMixtures, List.finRange_succ, Except.map]

/-! ### C55, C53 -/

/-- In each row of filtered_states the state of each factor lies between the states of two mixture elements of the individual. -/
theorem filtered_between {outs : List (StepOut nObs nMix n)} (hw : ∀ o ∈ outs, ∀ i, ∑ e, Real.exp (o.logWeights i e) = 1) {u : List URow} {rows : List (FilteredRow n)}
    (h : createFilteredStates outs u = .ok rows) :
    ∀ r ∈ rows, ∃ o ∈ outs, ∃ i : Fin nObs, r.id = i.val ∧ ∀ f, (∃ e, o.states i e f ≤ r.values f) ∧ ∃ e, r.values f ≤ o.states i e f := by
  unfold createFilteredStates at h
  obtain ⟨keep, _, h⟩ := py_bind_ok.mp h
  obtain ⟨blocks, hblocks, h⟩ := py_bind_ok.mp h
  split_ifs at h
  obtain rfl := Except.ok.inj h
  rw [mapM_ok_iff] at hblocks
  intro r hr
  obtain ⟨block, hb, hr⟩ := List.mem_flatten.mp hr
  obtain ⟨k, hk⟩ := List.getElem?_of_mem hb
  obtain ⟨x, hx, hxb⟩ := forall₂_getElem?_right hblocks hk
  obtain ⟨o, ho, hxb⟩ := py_bind_ok.mp hxb
  obtain rfl := Except.ok.inj hxb
  obtain ⟨i, _, rfl⟩ := List.mem_map.mp hr
  have hmem : o ∈ outs := by
    unfold pyIndex at ho
    split at ho
    · next v hv => rw [← Except.ok.inj ho]; exact List.mem_of_getElem? hv
    · cases ho
  refine ⟨o, hmem, i, rfl, fun f => ?_⟩
  have hs := hw o hmem i
  constructor
  · by_contra hc
    push Not at hc
    have : aggregate o.states o.logWeights i f < aggregate o.states o.logWeights i f := by
      calc aggregate o.states o.logWeights i f = (∑ e, Real.exp (o.logWeights i e)) * aggregate o.states o.logWeights i f := by rw [hs, one_mul]
        _ = ∑ e, aggregate o.states o.logWeights i f * Real.exp (o.logWeights i e) := by rw [Finset.sum_mul]; simp only [mul_comm]
        _ < ∑ e, o.states i e f * Real.exp (o.logWeights i e) := by
          apply Finset.sum_lt_sum_of_nonempty
          · by_contra hne
            rw [Finset.not_nonempty_iff_eq_empty] at hne
            rw [hne] at hs; simp at hs
          · intro e _
            exact mul_lt_mul_of_pos_right (hc e) (Real.exp_pos _)
        _ = aggregate o.states o.logWeights i f := rfl
    exact lt_irrefl _ this
  · by_contra hc
    push Not at hc
    have : aggregate o.states o.logWeights i f < aggregate o.states o.logWeights i f := by
      calc aggregate o.states o.logWeights i f = ∑ e, o.states i e f * Real.exp (o.logWeights i e) := rfl
        _ < ∑ e, aggregate o.states o.logWeights i f * Real.exp (o.logWeights i e) := by
          apply Finset.sum_lt_sum_of_nonempty
          · by_contra hne
            rw [Finset.not_nonempty_iff_eq_empty] at hne
            rw [hne] at hs; simp at hs
          · intro e _
            exact mul_lt_mul_of_pos_right (hc e) (Real.exp_pos _)
        _ = (∑ e, Real.exp (o.logWeights i e)) * aggregate o.states o.logWeights i f := by rw [Finset.sum_mul]; simp only [mul_comm]
        _ = aggregate o.states o.logWeights i f := by rw [hs, one_mul]
    exact lt_irrefl _ this

theorem foldl_min_le (xs : List ℝ) (x : ℝ) : xs.foldl min x ≤ x ∧ (∀ y ∈ xs, xs.foldl min x ≤ y) ∧ xs.foldl min x ∈ x :: xs := by
  induction xs generalizing x with
  | nil => simp
  | cons a xs ih =>
    obtain ⟨h1, h2, h3⟩ := ih (min x a)
    rw [List.foldl_cons]
    refine ⟨h1.trans (min_le_left _ _), ?_, ?_⟩
    · intro y hy
      rcases List.mem_cons.mp hy with rfl | hy
      · exact h1.trans (min_le_right _ _)
      · exact h2 y hy
    · rcases List.mem_cons.mp h3 with h | h
      · rw [h]
        rcases min_choice x a with h' | h' <;> rw [h'] <;> simp
      · simp [h]

theorem le_foldl_max (xs : List ℝ) (x : ℝ) : x ≤ xs.foldl max x ∧ (∀ y ∈ xs, y ≤ xs.foldl max x) ∧ xs.foldl max x ∈ x :: xs := by
  induction xs generalizing x with
  | nil => simp
  | cons a xs ih =>
    obtain ⟨h1, h2, h3⟩ := ih (max x a)
    rw [List.foldl_cons]
    refine ⟨(le_max_left _ _).trans h1, ?_, ?_⟩
    · intro y hy
      rcases List.mem_cons.mp hy with rfl | hy
      · exact (le_max_right _ _).trans h1
      · exact h2 y hy
    · rcases List.mem_cons.mp h3 with h | h
      · rw [h]
        rcases max_choice x a with h' | h' <;> rw [h'] <;> simp
      · simp [h]

theorem foldl_max_nat (xs : List Nat) (a : Nat) : a ≤ xs.foldl max a ∧ ∀ y ∈ xs, y ≤ xs.foldl max a := by
  induction xs generalizing a with
  | nil => simp
  | cons b xs ih =>
    obtain ⟨h1, h2⟩ := ih (max a b)
    rw [List.foldl_cons]
    refine ⟨by omega, fun y hy => ?_⟩
    rcases List.mem_cons.mp hy with rfl | hy
    · omega
    · exact h2 y hy

/-- C53: the ranges of a factor have one entry for each period that occurs, in increasing order; all states of the period lie in the range and both ends are attained. -/
theorem C53_state_ranges (rows : List (Nat × ℝ)) :
    (createStateRange rows).Pairwise (fun a b => a.1 < b.1) ∧ (∀ t, (∃ lo hi, (t, lo, hi) ∈ createStateRange rows) ↔ ∃ x, (t, x) ∈ rows) ∧
    ∀ t lo hi, (t, lo, hi) ∈ createStateRange rows → (∀ x, (t, x) ∈ rows → lo ≤ x ∧ x ≤ hi) ∧ (t, lo) ∈ rows ∧ (t, hi) ∈ rows := by
  unfold createStateRange
  simp only []
  refine ⟨?_, ?_, ?_⟩
  · rw [List.pairwise_map]
    exact List.pairwise_lt_range.filter _
  · intro t
    simp only [List.mem_map, List.mem_filter, List.mem_range, List.any_eq_true, beq_iff_eq, Prod.mk.injEq]
    constructor
    · rintro ⟨lo, hi, t', ⟨_, ⟨s, x⟩, hx, rfl⟩, rfl, _⟩
      exact ⟨x, hx⟩
    · rintro ⟨x, hx⟩
      refine ⟨_, _, t, ⟨?_, (t, x), hx, rfl⟩, rfl, rfl, rfl⟩
      have := (foldl_max_nat (rows.map Prod.fst) 0).2 t (List.mem_map.mpr ⟨_, hx, rfl⟩)
      omega
  · intro t lo hi h
    obtain ⟨t', ht, e⟩ := List.mem_map.mp h
    simp only [Prod.mk.injEq] at e
    obtain ⟨rfl, rfl, rfl⟩ := e
    have hmem : ∀ x, x ∈ (rows.filter (fun r => r.1 == t')).map Prod.snd ↔ (t', x) ∈ rows := by
      intro x
      simp only [List.mem_map, List.mem_filter, beq_iff_eq]
      constructor
      · rintro ⟨⟨s, y⟩, ⟨h1, h2⟩, rfl⟩
        simp only at h2
        subst h2; exact h1
      · intro hx; exact ⟨(t', x), ⟨hx, rfl⟩, rfl⟩
    have hne : ∃ x, (t', x) ∈ rows := by
      simp only [List.mem_filter, List.any_eq_true, beq_iff_eq] at ht
      obtain ⟨_, ⟨s, x⟩, hx, rfl⟩ := ht
      exact ⟨x, hx⟩
    cases hg : (rows.filter (fun r => r.1 == t')).map Prod.snd with
    | nil =>
      obtain ⟨x, hx⟩ := hne
      rw [← hmem, hg] at hx
      simp at hx
    | cons a as =>
      rw [hg] at hmem
      obtain ⟨a1, a2, a3⟩ := foldl_min_le as a
      obtain ⟨b1, b2, b3⟩ := le_foldl_max as a
      refine ⟨fun x hx => ?_, (hmem _).mp a3, (hmem _).mp b3⟩
      rcases List.mem_cons.mp ((hmem x).mpr hx) with rfl | hx
      · exact ⟨a1, b1⟩
      · exact ⟨a2 x hx, b2 x hx⟩


/-! ### C51 -/

theorem flatten_ite {β γ : Type} (p : β → Prop) [DecidablePred p] (g : β → γ) (xs : List β) :
    (xs.map (fun x => if p x then [g x] else [])).flatten = (xs.filter (fun x => decide (p x))).map g := by
  induction xs with
  | nil => rfl
  | cons a xs ih =>
    rw [List.map_cons, List.flatten_cons, ih, List.filter_cons]
    by_cases h : p a <;> simp [h]

theorem mapM_ok_of {β γ : Type} {f : β → Py γ} {g : β → γ} {xs : List β} (hf : ∀ x ∈ xs, f x = .ok (g x)) : xs.mapM f = .ok (xs.map g) := by
  rw [mapM_ok_iff]
  induction xs with
  | nil => exact .nil
  | cons a xs ih => exact .cons (hf a List.mem_cons_self) (ih (fun x hx => hf x (List.mem_cons_of_mem _ hx)))

theorem lastMeasurement_ok {u : List URow} {t : Nat} (h : ∃ r ∈ u, r.period = t ∧ r.purpose = .measurement) :
    ∃ r ∈ u, r.period = t ∧ r.purpose = .measurement ∧ lastMeasurement u t = .ok r.var := by
  unfold lastMeasurement
  cases hl : (u.filter (fun r => decide (r.purpose = .measurement) && r.period == t)).getLast? with
  | none =>
    rw [List.getLast?_eq_none_iff, List.filter_eq_nil_iff] at hl
    obtain ⟨r, hr, rfl, hp⟩ := h
    exact absurd (by simp [hp]) (hl r hr)
  | some r =>
    have := List.mem_of_getLast? hl
    simp only [List.mem_filter, Bool.and_eq_true, decide_eq_true_eq, beq_iff_eq] at this
    exact ⟨r, this.1, this.2.2, this.2.1, rfl⟩

/-- The variable found by `lastMeasurement` is the one of the last measurement row of the period. -/
theorem lastMeasurement_eq {u : List URow} {t k : Nat} (h : LastMeasurement u t k) : ∃ r, u[k]? = some r ∧ r.period = t ∧ lastMeasurement u t = .ok r.var := by
  obtain ⟨r, hr, ht, hp, hlast⟩ := h
  refine ⟨r, hr, ht, ?_⟩
  obtain ⟨hk, hrk⟩ := List.getElem?_eq_some_iff.mp hr
  have hsplit : u = u.take k ++ r :: u.drop (k + 1) := by
    rw [← hrk, List.getElem_cons_drop, List.take_append_drop]
  have hnil : (u.drop (k + 1)).filter (fun r => decide (r.purpose = .measurement) && r.period == t) = [] := by
    rw [List.filter_eq_nil_iff]
    intro x hx hc
    simp only [Bool.and_eq_true, decide_eq_true_eq, beq_iff_eq] at hc
    obtain ⟨j, hj⟩ := List.getElem?_of_mem hx
    rw [List.getElem?_drop] at hj
    have := hlast _ x hj hc.2 hc.1
    omega
  unfold lastMeasurement
  rw [hsplit, List.filter_append, List.filter_cons]
  simp [hp, ht, hnil]

theorem keepUpdates_ok {u : List URow} {N : Nat} (hkeys : (u.map (fun r => (r.period, r.var))).Nodup) (hsorted : u.Pairwise (fun r q => r.period ≤ q.period))
    (hlt : ∀ r ∈ u, r.period < N) (hall : ∀ t < N, ∃ r ∈ u, r.period = t ∧ r.purpose = .measurement) :
    ∃ ks, keepUpdates u = .ok ks ∧ ks.length = N ∧ (∀ k ∈ ks, k < u.length) ∧ ∀ t k, LastMeasurement u t k → ks[t]? = some k := by
  have : Nonempty URow := ⟨⟨0, "", [], .measurement⟩⟩
  choose! L hL using fun t (ht : t < N) => lastMeasurement_ok (hall t ht)
  set kept := u.zipIdx.filter (fun x => decide (x.1.var = (L x.1.period).var)) with hkept
  have hmemu : ∀ x ∈ u.zipIdx, x.1 ∈ u := fun x hx => by
    obtain ⟨y, j⟩ := x
    exact List.mem_of_getElem? (List.mem_zipIdx_iff_getElem?.mp hx)
  have hko : keepUpdates u = .ok (kept.map Prod.snd) := by
    unfold keepUpdates
    rw [mapM_ok_of (g := fun x => if x.1.var = (L x.1.period).var then [x.2] else [])]
    · rw [hkept, ← flatten_ite (fun x : URow × Nat => x.1.var = (L x.1.period).var) Prod.snd]
      rfl
    · intro x hx
      rw [(hL _ (hlt _ (hmemu x hx))).2.2.2]
      rfl
  -- keys of the rows with positions
  have hpw : u.zipIdx.Pairwise (fun a b => a.1.period ≤ b.1.period ∧ (a.1.period, a.1.var) ≠ (b.1.period, b.1.var)) := by
    have h1 : (u.zipIdx.map Prod.fst).Pairwise (fun a b => a.period ≤ b.period ∧ (a.period, a.var) ≠ (b.period, b.var)) := by
      rw [List.zipIdx_map_fst]
      exact hsorted.and (List.pairwise_map.mp hkeys)
    exact List.pairwise_map.mp h1
  have hperiods : kept.map (fun x => x.1.period) = List.range N := by
    have hp : (kept.map (fun x => x.1.period)).Pairwise (· < ·) := by
      rw [List.pairwise_map]
      have := hpw.filter (fun x => decide (x.1.var = (L x.1.period).var))
      refine List.Pairwise.imp_of_mem ?_ this
      intro a b ha hb hab
      have ha := of_decide_eq_true (List.mem_filter.mp ha).2
      have hb := of_decide_eq_true (List.mem_filter.mp hb).2
      refine lt_of_le_of_ne hab.1 (fun he => hab.2 ?_)
      rw [ha, hb, he]
    refine List.Perm.eq_of_pairwise' (r := (· < ·)) hp List.pairwise_lt_range ?_
    rw [List.perm_ext_iff_of_nodup (hp.imp (fun h => h.ne)) List.nodup_range]
    intro t
    rw [List.mem_range]
    constructor
    · intro h
      obtain ⟨x, hx, rfl⟩ := List.mem_map.mp h
      exact hlt _ (hmemu x (List.mem_filter.mp hx).1)
    · intro ht
      obtain ⟨hu, hp, _⟩ := hL t ht
      obtain ⟨k, hk⟩ := List.getElem?_of_mem hu
      exact List.mem_map.mpr ⟨(L t, k), List.mem_filter.mpr ⟨List.mem_zipIdx_iff_getElem?.mpr hk, by simp [hp]⟩, hp⟩
  have hlen : kept.length = N := by
    have := congrArg List.length hperiods
    simpa using this
  refine ⟨_, hko, by rw [List.length_map, hlen], ?_, ?_⟩
  · intro k hk
    obtain ⟨x, hx, rfl⟩ := List.mem_map.mp hk
    obtain ⟨y, j⟩ := x
    exact (List.getElem?_eq_some_iff.mp (List.mem_zipIdx_iff_getElem?.mp (List.mem_filter.mp hx).1)).1
  · intro t k h
    obtain ⟨r, hr, ht, hvar⟩ := lastMeasurement_eq h
    have htN : t < N := ht ▸ hlt r (List.mem_of_getElem? hr)
    obtain ⟨⟨y, j⟩, hx⟩ : ∃ x, kept[t]? = some x := by
      rw [← hlen] at htN
      exact ⟨_, List.getElem?_eq_getElem htN⟩
    have hyp : y.period = t := by
      have := congrArg (fun l => l[t]?) hperiods
      simp only [List.getElem?_map, hx, List.getElem?_range htN, Option.map_some, Option.some.injEq] at this
      exact this
    have hmem := List.mem_filter.mp (List.mem_of_getElem? hx)
    have hy := List.mem_zipIdx_iff_getElem?.mp hmem.1
    have hyv : y.var = r.var := by
      have h1 := of_decide_eq_true hmem.2
      rw [(hL t htN).2.2.2] at hvar
      rw [h1, hyp, Except.ok.inj hvar]
    rw [List.getElem?_map, hx]
    simp only [Option.map_some, Option.some.injEq]
    have hi : ∀ (a : Nat) (z : URow), u[a]? = some z → (u.map (fun r => (r.period, r.var)))[a]? = some (z.period, z.var) := by
      intro a z hz; rw [List.getElem?_map, hz]; rfl
    have e1 := hi j y hy
    have e2 := hi k r hr
    rw [hyp, hyv] at e1
    rw [ht] at e2
    exact (List.getElem?_inj (List.getElem?_eq_some_iff.mp e1).1 hkeys).mp (e1.trans e2.symm)

/-- C51 (partial): if every period has a measurement that is not an anchoring outcome, filtered_states has exactly one row for each period and individual, labelled with them,
with the average of the states after the last measurement update of that period, weighted by the mixture weights. What is missing: models where some period has no measurements,
for which it is false (`C51_counterexample_label`, `C51_counterexample_crash`). -/
theorem C51_filtered_states_partial {α : Type} [OfScientific α] [Neg α] [Zero α] [One α] [OfNat α 2] [DecidableEq α] {m : ModelDict α} {pm : Processed α} (h : processModel m = .ok pm)
    (hm : ∀ t, IsPeriod m t → ∃ v f, Measures m t v f ∧ ¬ ∃ g, Anchors m v g) {outs : List (StepOut nObs nMix n)} (hlen : outs.length = pm.updateInfo.length) :
    ∃ rows, createFilteredStates outs pm.updateInfo = .ok rows ∧ rows.length = pm.dimensions.nPeriods * nObs ∧
      (∀ t, IsPeriod m t → ∃ k, LastMeasurement pm.updateInfo t k) ∧
      ∀ (t k : Nat) (o : StepOut nObs nMix n) (i : Fin nObs), LastMeasurement pm.updateInfo t k → outs[k]? = some o →
        rows[t * nObs + i.val]? = some { values := fun f => ∑ e, o.states i e f * Real.exp (o.logWeights i e), period := t, id := i.val } := by
  obtain ⟨hkeys, hupd, hsorted, _, hpurp⟩ := C01_update_info_exact h
  have hlt : ∀ r ∈ pm.updateInfo, r.period < pm.dimensions.nPeriods := fun r hr => by
    have := (hupd r.period r.var).mp ⟨r, hr, rfl, rfl⟩
    have hN := isNPeriods_of_ok h
    rw [← isPeriod_iff h]
    rcases this with ⟨f, spec, hf, ms, hms, _⟩ | ⟨hp, _⟩
    · exact ⟨_, hN, lt_of_lt_of_le (List.getElem?_eq_some_iff.mp hms).1 (hN.2 f spec hf)⟩
    · exact hp
  have hall : ∀ t < pm.dimensions.nPeriods, ∃ r ∈ pm.updateInfo, r.period = t ∧ r.purpose = .measurement := by
    intro t ht
    obtain ⟨v, f, hM, hA⟩ := hm t ((isPeriod_iff h t).mpr ht)
    obtain ⟨r, hr, ht, rfl⟩ := (hupd t v).mpr (Or.inl ⟨f, hM⟩)
    refine ⟨r, hr, ht, ?_⟩
    have := mt (hpurp r hr).mp hA
    cases hp : r.purpose with
    | measurement => rfl
    | anchoring => exact absurd hp this
  obtain ⟨ks, hks, hksl, hkslt, hkst⟩ := keepUpdates_ok hkeys hsorted hlt hall
  have hpos : 1 ≤ pm.dimensions.nPeriods :=
    ((checkModel_ok_iff (isNPeriods_of_ok h)).mp (processModel_ok_iff.mp h).2.1).periods _ (isNPeriods_of_ok h)
  have hlast : ∀ t, IsPeriod m t → ∃ k, LastMeasurement pm.updateInfo t k := by
    intro t ht
    obtain ⟨r, hr, hrt, hrp⟩ := hall t ((isPeriod_iff h t).mp ht)
    obtain ⟨k0, hk0⟩ := List.getElem?_of_mem hr
    let P : Nat → Prop := fun k => ∃ r, pm.updateInfo[k]? = some r ∧ r.period = t ∧ r.purpose = .measurement
    have hP : P k0 := ⟨r, hk0, hrt, hrp⟩
    have hbound : ∀ k, P k → k ≤ pm.updateInfo.length := fun k ⟨r, h, _⟩ => (List.getElem?_eq_some_iff.mp h).1.le
    classical
    obtain ⟨r', h1, h2, h3⟩ := Nat.findGreatest_spec (P := P) (hbound k0 hP) hP
    exact ⟨_, r', h1, h2, h3, fun k' x hx hxt hxp => Nat.le_findGreatest (hbound k' ⟨x, hx, hxt, hxp⟩) ⟨x, hx, hxt, hxp⟩⟩
  let block : StepOut nObs nMix n × Nat → List (FilteredRow n) := fun x =>
    (List.finRange nObs).map (fun i => { values := aggregate x.1.states x.1.logWeights i, period := x.2, id := i.val })
  obtain ⟨blocks, hblocks⟩ : ∃ blocks, ks.zipIdx.mapM (fun x => do
      let out ← pyIndex outs x.1
      pure ((List.finRange nObs).map (fun i => ({ values := aggregate out.states out.logWeights i, period := x.2, id := i.val } : FilteredRow n)))) = Except.ok blocks := by
    refine mapM_exists (fun x hx => ?_)
    have : x.1 < outs.length := by
      rw [hlen]
      obtain ⟨y, j⟩ := x
      exact hkslt _ (List.mem_of_getElem? (List.mem_zipIdx_iff_getElem?.mp hx))
    exact ⟨_, py_bind_ok.mpr ⟨_, by unfold pyIndex; rw [List.getElem?_eq_getElem this], rfl⟩⟩
  have hforall := (mapM_ok_iff _ _ _).mp hblocks
  have hbl : blocks.length = pm.dimensions.nPeriods := by rw [← hforall.length_eq, List.length_zipIdx, hksl]
  have hblk : ∀ b ∈ blocks, b.length = nObs := by
    intro b hb
    obtain ⟨j, hj⟩ := List.getElem?_of_mem hb
    obtain ⟨x, _, hx⟩ := forall₂_getElem?_right hforall hj
    obtain ⟨o, _, hx⟩ := py_bind_ok.mp hx
    rw [← Except.ok.inj hx]; simp
  refine ⟨blocks.flatten, ?_, ?_, hlast, ?_⟩
  · unfold createFilteredStates
    refine py_bind_ok.mpr ⟨_, hks, py_bind_ok.mpr ⟨_, hblocks, if_neg ?_⟩⟩
    intro hc
    rw [hc] at hbl
    simp at hbl; omega
  · rw [List.length_flatten, List.map_congr_left (g := fun _ => nObs) hblk]
    simp [hbl, List.map_const']
  · intro t k o i hk ho
    have hkt := hkst t k hk
    obtain ⟨b, hb, hbx⟩ := forall₂_getElem? hforall (i := t) (x := (k, t)) (by rw [List.getElem?_zipIdx, hkt]; simp)
    obtain ⟨o', ho', hbx⟩ := py_bind_ok.mp hbx
    have : o' = o := by
      unfold pyIndex at ho'
      rw [ho] at ho'
      exact (Except.ok.inj ho').symm
    subst this
    rw [flatten_getElem? hblk hb i.isLt, ← Except.ok.inj hbx]
    simp
    rfl


/-! ### C55 for runs of the filter -/

theorem outs_weights {nT nObserved nC : ℕ} {θ : Type} {qr : QR} (hqr : ValidQR qr) (fixed : ScanFixed nObs nT n nObserved nC θ) {args : List (LoopArgs nObs n nC)}
    (ha : ∀ a ∈ args, a.measSd ≠ 0) : ∀ {c : Carry nObs nMix n}, WeightsOk c.logWeights → ∀ o ∈ Skill.outs qr fixed c args, ∀ i, ∑ e, Real.exp (o.logWeights i e) = 1 := by
  induction args with
  | nil => intro c _ o ho; simp [outs] at ho
  | cons a as ih =>
    intro c h o ho
    rcases List.mem_cons.mp ho with rfl | ho
    · exact scanUpdate_weights hqr fixed h (ha a (by simp))
    · exact ih (fun a' h' => ha a' (by simp [h'])) (step_weights hqr fixed h (ha a (by simp))) o ho

/-- **C55.** In each row of filtered_states, the state of each factor lies between the smallest and the largest state of the mixture elements of the individual, for all
runs of the filter that start with weights that sum to one. -/
theorem C55_convex {nT nObserved nC : ℕ} {θ : Type} {qr : QR} (hqr : ValidQR qr) {fixed : ScanFixed nObs nT n nObserved nC θ} {clip : ClipOptions} {initial : Carry nObs nMix n}
    {args : List (LoopArgs nObs n nC)} (hw : ∀ i, ∑ e, Real.exp (initial.logWeights i e) = 1) (hsd : ∀ a ∈ args, a.measSd ≠ 0) {r : LoglikeResult nObs nMix n}
    (hr : logLikelihood qr fixed clip initial args = .ok r) {u : List URow} {rows : List (FilteredRow n)} (h : createFilteredStates r.outs u = .ok rows) :
    ∀ row ∈ rows, ∃ o ∈ r.outs, ∃ i : Fin nObs, row.id = i.val ∧ ∀ f, (∃ e, o.states i e f ≤ row.values f) ∧ ∃ e, row.values f ≤ o.states i e f := by
  obtain ⟨⟨c, os⟩, hs, hr⟩ := py_bind_ok.mp hr
  have he := scan_ok_iff qr fixed initial hs
  rw [Prod.mk.injEq] at he
  have : r.outs = os := by rw [← Except.ok.inj hr]
  rw [this, he.2] at h ⊢
  exact filtered_between (outs_weights hqr fixed hsd hw) h

/-! ### C54 -/

theorem pyIndex_ok {β : Type} {xs : List β} {i : Nat} {x : β} : pyIndex xs i = .ok x ↔ xs[i]? = some x := by
  unfold pyIndex
  cases h : xs[i]? <;> simp

theorem dict_get?_of_mem {β : Type} {d : Dict β} (hd : (d.map Prod.fst).Nodup) {k : String} {v : β} (h : (k, v) ∈ d) : Dict.get? d k = some v := by
  have := Dict.getItem_of_mem hd h
  unfold Dict.getItem at this
  split at this
  · next w hw => rw [hw, Except.ok.inj this]
  · cases this

theorem dict_get?_none {β : Type} {d : Dict β} {k : String} (h : k ∉ d.map Prod.fst) : Dict.get? d k = none := by
  unfold Dict.get?
  rw [Option.map_eq_none_iff, List.find?_eq_none]
  intro x hx hc
  exact h (List.mem_map.mpr ⟨x, hx, by simpa using hc⟩)

/-- The effect of `anchorStates`. -/
theorem anchorStates_ok {β : Type} [Add β] [Mul β] {df out : StatesFrame β} {factors : List String} {scaling constants : List (List β)} (hn : factors.Nodup)
    (h : anchorStates df factors scaling constants = .ok out) :
    out.columns = df.columns ∧ out.rows.length = df.rows.length ∧
    ∀ (k t : Nat) (cells : String → β), df.rows[k]? = some (t, cells) → ∃ cells', out.rows[k]? = some (t, cells') ∧ (∀ c, c ∉ factors → cells' c = cells c) ∧
      ∀ (j : Nat) f, factors[j]? = some f → ∃ s c, at2 scaling t j = some s ∧ at2 constants t j = some c ∧ cells' f = c + cells f * s := by
  unfold anchorStates at h
  obtain ⟨sel, hsel, h⟩ := py_bind_ok.mp h
  split_ifs at h
  obtain ⟨rows, hrows, h⟩ := py_bind_ok.mp h
  obtain rfl := Except.ok.inj h
  rw [mapM_ok_iff] at hsel hrows
  refine ⟨rfl, ?_, ?_⟩
  · exact (hsel.length_eq.trans hrows.length_eq).symm
  · intro k t cells hk
    obtain ⟨x, hx, hxe⟩ := forall₂_getElem? hsel hk
    obtain ⟨s, hs, hxe⟩ := py_bind_ok.mp hxe
    obtain ⟨c, hc, hxe⟩ := py_bind_ok.mp hxe
    obtain rfl := Except.ok.inj hxe
    obtain ⟨y, hy, hye⟩ := forall₂_getElem? hrows hx
    obtain ⟨new, hnew, hye⟩ := py_bind_ok.mp hye
    obtain rfl := Except.ok.inj hye
    rw [pyIndex_ok] at hs hc
    rw [mapM_ok_iff] at hnew
    have hkeys : new.map Prod.fst = factors := by
      apply List.ext_getElem?
      intro j
      rw [List.getElem?_map]
      cases hj : new[j]? with
      | none =>
        have := hnew.length_eq
        rw [List.getElem?_eq_none_iff] at hj
        rw [List.length_zipIdx] at this
        simp; omega
      | some v =>
        obtain ⟨z, hz, hze⟩ := forall₂_getElem?_right hnew hj
        obtain ⟨_, _, hze⟩ := py_bind_ok.mp hze
        obtain ⟨_, _, hze⟩ := py_bind_ok.mp hze
        rw [← Except.ok.inj hze]
        rw [List.getElem?_zipIdx] at hz
        cases hf : factors[j]? with
        | none => rw [hf] at hz; simp at hz
        | some f => rw [hf] at hz; simp at hz; rw [← hz]; rfl
    refine ⟨_, hy, ?_, ?_⟩
    · intro c' hc'
      simp only []
      rw [dict_get?_none (by rw [hkeys]; exact hc')]
      rfl
    · intro j f hf
      obtain ⟨z, hz, hze⟩ := forall₂_getElem? hnew (i := j) (x := (f, j)) (by rw [List.getElem?_zipIdx, hf]; simp)
      obtain ⟨sf, hsf, hze⟩ := py_bind_ok.mp hze
      obtain ⟨cf, hcf, hze⟩ := py_bind_ok.mp hze
      rw [pyIndex_ok] at hsf hcf
      refine ⟨sf, cf, by unfold at2; rw [hs]; exact hsf, by unfold at2; rw [hc]; exact hcf, ?_⟩
      simp only []
      rw [dict_get?_of_mem (by rw [hkeys]; exact hn) (k := f) (v := cf + cells f * sf) (by
        rw [show (f, cf + cells f * sf) = z from Except.ok.inj hze]
        exact List.mem_of_getElem? hz)]
      rfl


/-- `anchorStates` succeeds if the arrays have the entries that are needed. -/
theorem anchorStates_exists {β : Type} [Add β] [Mul β] {df : StatesFrame β} {factors : List String} {scaling constants : List (List β)} (hne : factors ≠ [])
    (hcol : ∀ f ∈ factors, f ∈ df.columns)
    (h : ∀ r ∈ df.rows, ∀ (j : Nat) f, factors[j]? = some f → (∃ s, at2 scaling r.1 j = some s) ∧ ∃ c, at2 constants r.1 j = some c) : ∃ out, anchorStates df factors scaling constants = .ok out := by
  obtain ⟨f0, fs, rfl⟩ := List.exists_cons_of_ne_nil hne
  have hrow : ∀ r ∈ df.rows, ∃ s c, scaling[r.1]? = some s ∧ constants[r.1]? = some c := by
    intro r hr
    obtain ⟨⟨s, hs⟩, c, hc⟩ := h r hr 0 f0 rfl
    unfold at2 at hs hc
    obtain ⟨s', hs', _⟩ := Option.bind_eq_some_iff.mp hs
    obtain ⟨c', hc', _⟩ := Option.bind_eq_some_iff.mp hc
    exact ⟨s', c', hs', hc'⟩
  obtain ⟨sel, hsel⟩ : ∃ sel, df.rows.mapM (fun r => do
      let s ← pyIndex scaling r.1
      let c ← pyIndex constants r.1
      pure (r, s, c)) = Except.ok sel := by
    refine mapM_exists (fun r hr => ?_)
    obtain ⟨s, c, hs, hc⟩ := hrow r hr
    exact ⟨_, py_bind_ok.mpr ⟨s, pyIndex_ok.mpr hs, py_bind_ok.mpr ⟨c, pyIndex_ok.mpr hc, rfl⟩⟩⟩
  have hsel' := (mapM_ok_iff _ _ _).mp hsel
  obtain ⟨rows, hrows⟩ : ∃ rows, sel.mapM (fun (x : (Nat × (String → β)) × List β × List β) => do
      let new ← (f0 :: fs).zipIdx.mapM (fun f => do
        let sf ← pyIndex x.2.1 f.2
        let cf ← pyIndex x.2.2 f.2
        pure (f.1, cf + x.1.2 f.1 * sf))
      pure (x.1.1, fun col => (Dict.get? new col).getD (x.1.2 col))) = Except.ok rows := by
    refine mapM_exists (fun x hx => ?_)
    obtain ⟨k, hk⟩ := List.getElem?_of_mem hx
    obtain ⟨r, hr, hre⟩ := forall₂_getElem?_right hsel' hk
    obtain ⟨s, hs, hre⟩ := py_bind_ok.mp hre
    obtain ⟨c, hc, hre⟩ := py_bind_ok.mp hre
    obtain rfl := Except.ok.inj hre
    rw [pyIndex_ok] at hs hc
    obtain ⟨new, hnew⟩ : ∃ new, (f0 :: fs).zipIdx.mapM (fun f => do
        let sf ← pyIndex s f.2
        let cf ← pyIndex c f.2
        pure (f.1, cf + r.2 f.1 * sf)) = Except.ok new := by
      refine mapM_exists (fun z hz => ?_)
      obtain ⟨f, j⟩ := z
      obtain ⟨⟨sf, hsf⟩, cf, hcf⟩ := h r (List.mem_of_getElem? hr) j f (List.mem_zipIdx_iff_getElem?.mp hz)
      unfold at2 at hsf hcf
      rw [hs] at hsf
      rw [hc] at hcf
      exact ⟨_, py_bind_ok.mpr ⟨sf, pyIndex_ok.mpr hsf, py_bind_ok.mpr ⟨cf, pyIndex_ok.mpr hcf, rfl⟩⟩⟩
    exact ⟨_, py_bind_ok.mpr ⟨new, hnew, rfl⟩⟩
  refine ⟨{ df with rows := rows }, py_bind_ok.mpr ⟨sel, hsel, ?_⟩⟩
  rw [if_pos (by simpa using hcol)]
  exact py_bind_ok.mpr ⟨rows, hrows, rfl⟩

variable {α : Type} [OfScientific α] [Neg α] [Zero α] [One α] [OfNat α 2] [DecidableEq α]

/-- **C54.** `anchor_states_df` keeps columns, rows, periods and all values that do not belong to a latent factor. The state of the factor with number j in a row of period t
is replaced by constant[t, j] + scale[t, j] * state, where the arrays are the parsed anchoring parameters that the likelihood uses for the parameters with the labels of the model. -/
theorem C54_affine {β : Type} [Zero β] [One β] [Add β] [Mul β] {m : ModelDict α} {pm : Processed α} (h : processModel m = .ok pm) (hd : DictKeys m) {log : β → β}
    {df out : StatesFrame β} {params : List (Loc × β)} (ho : anchorStatesDf log df m params = .ok out) :
    ∃ values p, values.length = pm.paramsIndex.length ∧ (∀ (i : Nat) l, pm.paramsIndex[i]? = some l → values[i]? = params.lookup l) ∧ pm.parse log values 1 = .ok p ∧
      out.columns = df.columns ∧ out.rows.length = df.rows.length ∧
      ∀ (k t : Nat) (cells : String → β), df.rows[k]? = some (t, cells) → ∃ cells', out.rows[k]? = some (t, cells') ∧ (∀ c, ¬ IsLatent m c → cells' c = cells c) ∧
        ∀ (j : Nat) f, (m.factors.map Prod.fst)[j]? = some f → ∃ s c, at2 p.scalingFactors t j = some s ∧ at2 p.anchoringConstants t j = some c ∧ cells' f = c + cells f * s := by
  obtain ⟨pm', hpm', ho⟩ := py_bind_ok.mp ho
  obtain rfl : pm = pm' := Except.ok.inj (h.symm.trans hpm')
  obtain ⟨values, hvalues, ho⟩ := py_bind_ok.mp ho
  obtain ⟨p, hp, ho⟩ := py_bind_ok.mp ho
  rw [(labels_of_ok h).1] at ho
  obtain ⟨h1, h2, h3⟩ := anchorStates_ok hd.factors ho
  rw [mapM_ok_iff] at hvalues
  refine ⟨values, p, hvalues.length_eq.symm, ?_, hp, h1, h2, ?_⟩
  · intro i l hl
    obtain ⟨v, hv, hve⟩ := forall₂_getElem? hvalues hl
    rw [hv]
    split at hve
    · next x hx => rw [hx, Except.ok.inj hve]
    · cases hve
  · intro k t cells hk
    obtain ⟨cells', hc, hother, hf⟩ := h3 k t cells hk
    refine ⟨cells', hc, fun c hc' => hother c (fun hm => hc' ?_), hf⟩
    obtain ⟨⟨f, spec⟩, hs, rfl⟩ := List.mem_map.mp hm
    exact ⟨spec, hs⟩

/-- **C54**, in terms of the labels of the parameters: for models as in C08 and C64, `anchor_states_df` succeeds if the DataFrame has a column for each latent factor, periods of
the model, and params has the labels of the template. The state of a factor f that is anchored in an outcome o becomes
(intercept of o_f in the period, or 0 with ignore_constant_when_anchoring) + loading of f on o_f * state. Factors that are not anchored and other columns keep their values. -/
theorem C54_anchored_states {β : Type} [Semiring β] {m : ModelDict α} {pm : Processed α} (h : processModel m = .ok pm) (hg : GoodNames m) (hc : CleanAnchoring m) (ho : SameOrder m)
    (hq : ∀ f, IsLatent m f → querySafe f) (hper : IsPeriod m 1) (hmix : ¬ HasNMixtures m 0) (log : β → β) {df : StatesFrame β} {params : List (Loc × β)} {val : Loc → β}
    (hval : ∀ l, IsParam m l → params.lookup l = some (val l)) (hcol : ∀ f, IsLatent m f → f ∈ df.columns) (hp : ∀ r ∈ df.rows, IsPeriod m r.1) :
    ∃ out, anchorStatesDf log df m params = .ok out ∧ out.columns = df.columns ∧ out.rows.length = df.rows.length ∧
      ∀ (k t : Nat) (cells : String → β), df.rows[k]? = some (t, cells) → ∃ cells', out.rows[k]? = some (t, cells') ∧
        (∀ c, ¬ (∃ o, AnchoredIn m c o) → cells' c = cells c) ∧
        (∀ f o, AnchoredIn m f o → ¬ AnchorFlag m AnchoringSpec.ignoreConstant →
          cells' f = val ⟨.controls, t, o ++ "_" ++ f, "constant"⟩ + cells f * val ⟨.loadings, t, o ++ "_" ++ f, f⟩) ∧
        (∀ f o, AnchoredIn m f o → AnchorFlag m AnchoringSpec.ignoreConstant → cells' f = cells f * val ⟨.loadings, t, o ++ "_" ++ f, f⟩) := by
  obtain ⟨p, hparse⟩ := C64_parse_succeeds_partial h hg hc hq hper hmix log 1 (pm.paramsIndex.map val) (by rw [List.length_map])
  have hvals : pm.paramsIndex.mapM (fun l =>
      match params.lookup l with
      | some x => .ok x
      | none => .error .keyError) = (.ok (pm.paramsIndex.map val) : Py _) := by
    refine mapM_ok_of (fun l hl => ?_)
    rw [hval l ((mem_paramsIndex_iff h l).mp hl)]
  have hC8 := C08_anchoring_params_partial h hg hc ho rfl hparse
  have hall : ∀ (j : Nat) f, (m.factors.map Prod.fst)[j]? = some f → (allFactors m)[j]? = some f := by
    intro j f hf
    unfold allFactors
    rw [List.getElem?_append_left (List.getElem?_eq_some_iff.mp hf).1, hf]
  have hlatent : ∀ f, IsLatent m f ↔ f ∈ m.factors.map Prod.fst := by
    intro f
    rw [List.mem_map]
    constructor
    · rintro ⟨spec, hs⟩; exact ⟨_, hs, rfl⟩
    · rintro ⟨⟨f, spec⟩, hs, rfl⟩; exact ⟨spec, hs⟩
  obtain ⟨out, hout⟩ := anchorStates_exists (df := df) (factors := m.factors.map Prod.fst) (scaling := p.scalingFactors) (constants := p.anchoringConstants)
    (by simpa using factors_ne_nil h) (fun f hf => hcol f ((hlatent f).mpr hf)) (by
      intro r hr j f hf
      obtain ⟨h1, h2, h3⟩ := hC8 r.1 j f (hp r hr) (hall j f hf)
      by_cases ha : ∃ o, AnchoredIn m f o
      · obtain ⟨o, ha⟩ := ha
        refine ⟨⟨_, (h1 o ha).1⟩, ?_⟩
        by_cases hi : AnchorFlag m AnchoringSpec.ignoreConstant
        · exact ⟨_, h3 hi⟩
        · exact ⟨_, (h1 o ha).2 hi⟩
      · exact ⟨⟨_, (h2 ha).1⟩, _, (h2 ha).2⟩)
  obtain ⟨e1, e2, e3⟩ := anchorStates_ok hg.keys.factors hout
  refine ⟨out, ?_, e1, e2, ?_⟩
  · unfold anchorStatesDf
    refine py_bind_ok.mpr ⟨pm, h, py_bind_ok.mpr ⟨_, hvals, py_bind_ok.mpr ⟨p, hparse, ?_⟩⟩⟩
    rw [(labels_of_ok h).1]; exact hout
  · intro k t cells hk
    obtain ⟨cells', hk', hother, hf⟩ := e3 k t cells hk
    have ht : IsPeriod m t := hp _ (List.mem_of_getElem? hk)
    refine ⟨cells', hk', ?_, ?_, ?_⟩
    · intro c hn
      by_cases hl : c ∈ m.factors.map Prod.fst
      · obtain ⟨j, hj⟩ := List.getElem?_of_mem hl
        obtain ⟨s, b, hs, hb, he⟩ := hf j c hj
        obtain ⟨g1, g2⟩ := (hC8 t j c ht (hall j c hj)).2.1 hn
        rw [g1] at hs
        rw [g2] at hb
        rw [he, ← Option.some.inj hs, ← Option.some.inj hb, zero_add, mul_one]
      · exact hother c hl
    · intro f o ha hi
      obtain ⟨j, hj⟩ := List.getElem?_of_mem ((hlatent f).mp (hc.latent f o ha))
      obtain ⟨s, b, hs, hb, he⟩ := hf j f hj
      obtain ⟨g1, g2⟩ := (hC8 t j f ht (hall j f hj)).1 o ha
      rw [g1] at hs
      rw [g2 hi] at hb
      rw [he, ← Option.some.inj hs, ← Option.some.inj hb]
    · intro f o ha hi
      obtain ⟨j, hj⟩ := List.getElem?_of_mem ((hlatent f).mp (hc.latent f o ha))
      obtain ⟨s, b, hs, hb, he⟩ := hf j f hj
      obtain ⟨g1, _⟩ := (hC8 t j f ht (hall j f hj)).1 o ha
      rw [g1] at hs
      rw [(hC8 t j f ht (hall j f hj)).2.2 hi] at hb
      rw [he, ← Option.some.inj hs, ← Option.some.inj hb, zero_add]

/-! ### counterexamples and examples -/

/-- A factor is not measured in the second of three periods. -/
def Ex.unmeasured : ModelDict Rat where
  factors := [("fac1", { measurements := [["y1"], [], ["y1"]], transition := .named "linear" })]
  estimationOptions := some {}

/-- C51: three periods, no measurement in period 1. The states of period 2 are labelled as period 1, and there are no rows for period 2. -/
theorem C51_counterexample_label (o0 o2 : StepOut 1 nMix n) : ∃ pm, processModel Ex.unmeasured = .ok pm ∧ pm.updateInfo.map (fun r => (r.period, r.var)) = [(0, "y1"), (2, "y1")] ∧
    (createFilteredStates [o0, o2] pm.updateInfo).map (fun rows => rows.map (fun r => (r.period, r.values))) =
      .ok [(0, aggregate o0.states o0.logWeights 0), (1, aggregate o2.states o2.logWeights 0)] := by
  obtain ⟨pm, h⟩ : ∃ pm, processModel Ex.unmeasured = .ok pm := ok_of_toBool (by decide +kernel)
  have hu : (processModel Ex.unmeasured).map (fun p => p.updateInfo) = .ok [⟨0, "y1", ["fac1"], .measurement⟩, ⟨2, "y1", ["fac1"], .measurement⟩] := by decide +kernel
  rw [h] at hu
  have hu : pm.updateInfo = _ := Except.ok.inj hu
  refine ⟨pm, h, by rw [hu]; rfl, ?_⟩
  rw [hu]
  rfl

/-- C51: if in addition fac1 is anchored, then the function crashes with an IndexError. -/
theorem C51_counterexample_crash : ∃ pm, processModel { Ex.unmeasured with anchoring := some { outcomes := some [("fac1", "Q1")] } } = .ok pm ∧ pm.updateInfo.length = 5 ∧
    ∀ outs : List (StepOut nObs nMix n), createFilteredStates outs pm.updateInfo = .error .indexError := by
  obtain ⟨pm, h⟩ : ∃ pm, processModel { Ex.unmeasured with anchoring := some { outcomes := some [("fac1", "Q1")] } } = .ok pm := ok_of_toBool (by decide +kernel)
  have hu : (processModel { Ex.unmeasured with anchoring := some { outcomes := some [("fac1", "Q1")] } }).map (fun p => (p.updateInfo.length, keepUpdates p.updateInfo)) = .ok (5, .error .indexError) := by decide +kernel
  rw [h] at hu
  have hu := Prod.mk.inj (Except.ok.inj hu)
  refine ⟨pm, h, hu.1, fun outs => ?_⟩
  unfold createFilteredStates
  rw [hu.2]
  rfl

end Skill
