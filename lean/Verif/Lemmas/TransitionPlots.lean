import Verif.Spec.TransitionPlots
import Verif.Lemmas.PipelineLaw2
import Verif.Props.DebugData
import Verif.Props.ProcessData
import Verif.Props.ParseParams2
/-
Lemmas for C77-C79: curves, quantiles and the data of transition plots.
-/
namespace Skill
open Spec

/-! ### grids and quantiles -/

theorem linspace_length (a b : ℝ) (n : ℕ) : (linspace a b n).length = n := by simp [linspace]

theorem linspace_get {a b : ℝ} {n i : ℕ} {x : ℝ} (h : (linspace a b n)[i]? = some x) : i < n ∧ x = a + i * ((b - a) / ((n : ℝ) - 1)) := by
  have hi : i < n := by
    have := (List.getElem?_eq_some_iff.mp h).1
    simpa [linspace] using this
  refine ⟨hi, ?_⟩
  unfold linspace at h
  rw [List.getElem?_map, List.getElem?_range hi] at h
  exact (Option.some.inj h).symm

theorem linspace_even (a b : ℝ) (n : ℕ) : EvenlySpaced (linspace a b n) a b := by
  refine ⟨?_, ?_, (b - a) / ((n : ℝ) - 1), ?_⟩
  · intro x hx
    obtain ⟨_, h⟩ := linspace_get hx
    rw [h]
    simp
  · intro x hn hx
    rw [linspace_length] at hn
    rw [List.getLast?_eq_getElem?, linspace_length] at hx
    obtain ⟨_, h⟩ := linspace_get hx
    rw [h, Nat.cast_sub (by omega)]
    have : (n : ℝ) - 1 ≠ 0 := by
      have : (2 : ℝ) ≤ n := by exact_mod_cast hn
      intro h
      linarith
    push_cast
    field_simp
    ring
  · intro i x y hx hy
    obtain ⟨_, h1⟩ := linspace_get hx
    obtain ⟨_, h2⟩ := linspace_get hy
    rw [h1, h2]
    push_cast
    ring

theorem quantile_spec (nan : ℝ) {xs : List ℝ} (hne : xs ≠ []) {q : ℝ} (h0 : 0 ≤ q) (h1 : q ≤ 1) : QuantileIs xs q (pandasQuantile nan xs q) := by
  have hlen : 1 ≤ xs.length := List.length_pos_iff.mpr hne
  have hlen' : (1 : ℝ) ≤ xs.length := by exact_mod_cast hlen
  have hh0 : 0 ≤ ((xs.length : ℝ) - 1) * q := mul_nonneg (by linarith) h0
  have hh1 : ((xs.length : ℝ) - 1) * q ≤ xs.length - 1 := by nlinarith
  refine ⟨xs.insertionSort (· ≤ ·), List.perm_insertionSort _ _, List.pairwise_insertionSort _ _, ⌊((xs.length : ℝ) - 1) * q⌋₊, ((xs.length : ℝ) - 1) * q - ⌊((xs.length : ℝ) - 1) * q⌋₊,
    (xs.insertionSort (· ≤ ·)).getD ⌊((xs.length : ℝ) - 1) * q⌋₊ 0, ?_, ?_, ?_, ?_, ?_⟩
  · have := Nat.floor_le hh0
    linarith
  · have := Nat.lt_floor_add_one (((xs.length : ℝ) - 1) * q)
    linarith
  · ring
  · have hi : ⌊((xs.length : ℝ) - 1) * q⌋₊ < xs.length := by
      rw [Nat.floor_lt hh0]
      linarith
    have hi' : ⌊((xs.length : ℝ) - 1) * q⌋₊ < (xs.insertionSort (· ≤ ·)).length := by rw [List.length_insertionSort]; exact hi
    rw [List.getD_eq_getElem?_getD, List.getElem?_eq_getElem hi', Option.getD_some]
  · by_cases hw : ((xs.length : ℝ) - 1) * q - ⌊((xs.length : ℝ) - 1) * q⌋₊ = 0
    · left
      refine ⟨hw, ?_⟩
      unfold pandasQuantile
      rw [if_neg hne]
      simp only [hw]
      ring
    · right
      have hi : ⌊((xs.length : ℝ) - 1) * q⌋₊ + 1 < xs.length := by
        have h2 : ((⌊((xs.length : ℝ) - 1) * q⌋₊ : ℕ) : ℝ) < xs.length - 1 := by
          have := Nat.floor_le hh0
          rcases lt_or_eq_of_le this with h | h
          · linarith
          · exact absurd (by linarith) hw
        have : ((⌊((xs.length : ℝ) - 1) * q⌋₊ + 1 : ℕ) : ℝ) < xs.length := by push_cast; linarith
        exact_mod_cast this
      have hi' : ⌊((xs.length : ℝ) - 1) * q⌋₊ + 1 < (xs.insertionSort (· ≤ ·)).length := by rw [List.length_insertionSort]; exact hi
      refine ⟨_, List.getElem?_eq_getElem hi', ?_⟩
      unfold pandasQuantile
      rw [if_neg hne]
      simp only []
      have e : ∀ d, (xs.insertionSort (· ≤ ·)).getD (⌊((xs.length : ℝ) - 1) * q⌋₊ + 1) d = (xs.insertionSort (· ≤ ·))[⌊((xs.length : ℝ) - 1) * q⌋₊ + 1] := fun d => by
        rw [List.getD_eq_getElem?_getD, List.getElem?_eq_getElem hi', Option.getD_some]
      rw [e]
      ring

/-! ### curves -/

/-- The points of a curve. -/
noncomputable def curvePoints (m : ModelDict ℝ) (val : Loc → ℝ) (t : ℕ) (input output : String) (fn : TransFn) (others : String → ℝ) (grid : List ℝ) : List (ℝ × ℝ) :=
  grid.map (fun x => (x, nextValue (allFactors m) (fun f => if f = input then x else others f) (fun name => val ⟨.transition, t, output, name⟩) output fn))

theorem curve_eq {m : ModelDict ℝ} {val : Loc → ℝ} {t : ℕ} {output : String} {fn : TransFn} (hf : output ∈ allFactors m)
    (hu : TransFn.Usable (allFactors m) (fun name => val ⟨.transition, t, output, name⟩) fn) (input : String) (grid : List ℝ) (others : String → ℝ) :
    curve fn ((paramNamesOf (allFactors m) fn).map (fun name => val ⟨.transition, t, output, name⟩)) (allFactors m) input output grid others = .ok (curvePoints m val t input output fn others grid) := by
  unfold curve curvePoints
  refine mapM_pure_ok _ _ _ ?_
  intro x _
  have := nextFactor_eq (fs := allFactors m) (fun f => if f = input then x else others f) (fun name => val ⟨.transition, t, output, name⟩)
    (params := [(output, (paramNamesOf (allFactors m) fn).map (fun name => val ⟨.transition, t, output, name⟩))]) hf (fn := fn) (by simp [Dict.getItem, Dict.get?]) hu
  rw [this]
  rfl

theorem curvePoints_spec (m : ModelDict ℝ) (val : Loc → ℝ) (t : ℕ) (input output : String) (fn : TransFn) (others : String → ℝ) (grid : List ℝ) :
    (curvePoints m val t input output fn others grid).map Prod.fst = grid ∧ ∀ p ∈ curvePoints m val t input output fn others grid, OnCurve m val t input output fn others p := by
  constructor
  · unfold curvePoints
    rw [List.map_map]
    exact List.map_id grid
  · intro p hp
    obtain ⟨x, _, rfl⟩ := List.mem_map.mp hp
    rfl

/-! ### traces -/

theorem colors_eq {γ : Type} (qs : List ℝ) (block : ℝ → List γ) (hb : ∀ q ∈ qs, block q ≠ []) (hn : qs.Nodup) (acc : List ℝ) (hacc : ∀ q ∈ qs, q ∉ acc) :
    ((qs.flatMap (fun q => (block q).map (fun p => (q, p)))).map Prod.fst).foldl (fun acc q => if q ∈ acc then acc else acc ++ [q]) acc = acc ++ qs := by
  induction qs generalizing acc with
  | nil => simp
  | cons q qs ih =>
    rw [List.nodup_cons] at hn
    rw [List.flatMap_cons, List.map_append, List.foldl_append]
    have h1 : (((block q).map (fun p => (q, p))).map Prod.fst).foldl (fun acc q => if q ∈ acc then acc else acc ++ [q]) acc = acc ++ [q] := by
      obtain ⟨b, bs, hbs⟩ := List.exists_cons_of_ne_nil (hb q (List.mem_cons_self ..))
      rw [hbs, List.map_cons, List.map_cons, List.foldl_cons, if_neg (hacc q (List.mem_cons_self ..))]
      clear hbs
      induction bs with
      | nil => rfl
      | cons b bs ih' =>
        rw [List.map_cons, List.map_cons, List.foldl_cons]
        show List.foldl _ (if q ∈ acc ++ [q] then acc ++ [q] else _) _ = _
        rw [if_pos (by simp)]
        exact ih'
    rw [h1, ih (fun q' h => hb q' (List.mem_cons_of_mem _ h)) hn.2]
    · simp
    · intro q' hq'
      rw [List.mem_append, List.mem_singleton]
      rintro (h | rfl)
      · exact hacc q' (List.mem_cons_of_mem _ hq') h
      · exact hn.1 hq'

theorem filter_flatMap_block (qs : List ℝ) (block : ℝ → List (ℝ × ℝ)) (hn : qs.Nodup) {q : ℝ} (hq : q ∈ qs) :
    ((qs.flatMap (fun q => (block q).map (fun p => (q, p)))).filter (fun r => decide (r.1 = q))).map Prod.snd = block q := by
  induction qs with
  | nil => cases hq
  | cons a qs ih =>
    rw [List.nodup_cons] at hn
    rw [List.flatMap_cons, List.filter_append, List.map_append]
    by_cases h : q = a
    · subst h
      have h1 : ((block q).map (fun p => (q, p))).filter (fun r => decide (r.1 = q)) = (block q).map (fun p => (q, p)) := by
        rw [List.filter_eq_self]
        intro r hr
        obtain ⟨p, _, rfl⟩ := List.mem_map.mp hr
        simp
      have h2 : (qs.flatMap (fun q => (block q).map (fun p => (q, p)))).filter (fun r => decide (r.1 = q)) = [] := by
        rw [List.filter_eq_nil_iff]
        intro r hr
        obtain ⟨q', hq', hr⟩ := List.mem_flatMap.mp hr
        obtain ⟨p, _, rfl⟩ := List.mem_map.mp hr
        simp only [decide_eq_true_eq]
        rintro rfl
        exact hn.1 hq'
      rw [h1, h2, List.map_map]
      simp
    · have h1 : ((block a).map (fun p => (a, p))).filter (fun r => decide (r.1 = q)) = [] := by
        rw [List.filter_eq_nil_iff]
        intro r hr
        obtain ⟨p, _, rfl⟩ := List.mem_map.mp hr
        simpa using Ne.symm h
      rw [h1, ih hn.2 ((List.mem_cons.mp hq).resolve_left h)]
      rfl

theorem traces_eq (qs : List ℝ) (block : ℝ → List (ℝ × ℝ)) (hb : ∀ q ∈ qs, block q ≠ []) (hn : qs.Nodup) :
    tracesByQuantile (qs.flatMap (fun q => (block q).map (fun p => (q, p)))) = qs.map block := by
  unfold tracesByQuantile
  rw [colors_eq qs block hb hn [] (by simp), List.nil_append]
  exact List.map_congr_left (fun q hq => filter_flatMap_block qs block hn hq)

/-- The traces of a plot with fixed quantiles. -/
theorem quantile_traces (qs : List ℝ) (hne : qs ≠ []) (block : ℝ → List (ℝ × ℝ)) (hb : ∀ q ∈ qs, block q ≠ []) (hn : qs.Nodup) :
    (if 1 < qs.length then tracesByQuantile (qs.flatMap (fun q => (block q).map (fun p => (q, p)))) else [(qs.flatMap (fun q => (block q).map (fun p => (q, p)))).map Prod.snd]) = qs.map block := by
  split_ifs with h
  · exact traces_eq qs block hb hn
  · obtain ⟨q, qs', rfl⟩ := List.exists_cons_of_ne_nil hne
    have : qs' = [] := by
      rw [List.length_cons] at h
      exact List.length_eq_zero_iff.mp (by omega)
    subst this
    simp

theorem fixedQuantileData_eq {m : ModelDict ℝ} {val : Loc → ℝ} {t : ℕ} {output : String} {fn : TransFn} (hf : output ∈ allFactors m)
    (hu : TransFn.Usable (allFactors m) (fun name => val ⟨.transition, t, output, name⟩) fn) (nan : ℝ) (statesData : List StateRow) (range : ℝ × ℝ) (input : String) (qs : List ℝ) (nPoints : ℕ) :
    fixedQuantileData nan statesData range t input output qs nPoints fn ((paramNamesOf (allFactors m) fn).map (fun name => val ⟨.transition, t, output, name⟩)) (allFactors m) =
      if qs ≠ [] ∧ ∀ q ∈ qs, 0 ≤ q ∧ q ≤ 1 then
        .ok (qs.flatMap (fun q => (curvePoints m val t input output fn (fun f => pandasQuantile nan (periodValues statesData t f) q) (linspace range.1 range.2 nPoints)).map (fun p => (q, p))))
      else .error .valueError := by
  unfold fixedQuantileData
  simp only [curve_eq hf hu]
  by_cases hq : ∀ q ∈ qs, 0 ≤ q ∧ q ≤ 1
  · have : qs.mapM (m := Py) (fun q => if 0 ≤ q ∧ q ≤ 1 then (do
        let points ← (Except.ok (curvePoints m val t input output fn (fun f => pandasQuantile nan (periodValues statesData t f) q) (linspace range.1 range.2 nPoints)) : Py _)
        pure (points.map (fun xy => (q, xy)))) else .error .valueError) =
      .ok (qs.map (fun q => (curvePoints m val t input output fn (fun f => pandasQuantile nan (periodValues statesData t f) q) (linspace range.1 range.2 nPoints)).map (fun p => (q, p)))) := by
      refine mapM_pure_ok _ _ _ ?_
      intro q hq'
      rw [if_pos (hq q hq')]
      rfl
    show Except.bind (List.mapM (m := Py) _ _) _ = _
    erw [this]
    show (if _ = [] then _ else _) = _
    by_cases hne : qs = []
    · subst hne
      simp
    · rw [if_neg (by simpa using hne), if_pos ⟨hne, hq⟩]
      rw [List.flatMap_def]
      rfl
  · rw [if_neg (fun h => hq h.2)]
    show Except.bind (List.mapM (m := Py) _ _) _ = _
    have herr : ∀ l : List ℝ, (¬ ∀ q ∈ l, 0 ≤ q ∧ q ≤ 1) → l.mapM (m := Py) (fun q => if 0 ≤ q ∧ q ≤ 1 then (do
        let points ← (Except.ok (curvePoints m val t input output fn (fun f => pandasQuantile nan (periodValues statesData t f) q) (linspace range.1 range.2 nPoints)) : Py _)
        pure (points.map (fun xy => (q, xy)))) else .error .valueError) = .error .valueError := by
      intro l hl
      induction l with
      | nil => simp at hl
      | cons a as ih =>
        rw [List.mapM_cons]
        by_cases ha : 0 ≤ a ∧ a ≤ 1
        · rw [if_pos ha]
          have := ih (fun h => hl (fun q hq => by
            rcases List.mem_cons.mp hq with rfl | hq
            · exact ha
            · exact h q hq))
          rw [this]
          rfl
        · rw [if_neg ha]
          rfl
    erw [herr qs hq]
    rfl

/-! ### the data of a period -/

theorem forall₂_filter {γ δ : Type} {R : γ → δ → Prop} {p : γ → Bool} {q : δ → Bool} {xs : List γ} {ys : List δ} (h : List.Forall₂ R xs ys) (hpq : ∀ x y, R x y → p x = q y) :
    List.Forall₂ R (xs.filter p) (ys.filter q) := by
  induction h with
  | nil => exact .nil
  | cons hxy _ ih =>
    rw [List.filter_cons, List.filter_cons, hpq _ _ hxy]
    split_ifs
    · exact .cons hxy ih
    · exact ih

theorem exists_valueIs (m : ModelDict ℝ) (row : Option (LongRow ℝ)) (f : String) : ∃ a, ValueIs m row f a := by
  by_cases h : ∃ g, Anchors m f g
  · obtain ⟨g, o, h1, h2⟩ := h
    exact ⟨baseValue row o, Or.inl ⟨g, o, h1, h2, rfl⟩⟩
  · exact ⟨baseValue row f, Or.inr ⟨h, rfl⟩⟩

/-- The relation between a row of states and the row with the values of all factors. -/
def MergedRow (m : ModelDict ℝ) (data : Option (LongData ℝ)) (ids pers : List Int) (t : ℕ) (r s : StateRow) : Prop :=
  s.period = r.period ∧ (r.period = t → ∀ f ∈ allFactors m, FactorValue m data ids pers r f (s.values f))

theorem statesData_rows {m : ModelDict ℝ} {pm : Processed ℝ} (hpm : processModel m = .ok pm) (hg : GoodNames m) (hclash : NoNameClash m) {data : Option (LongData ℝ)} {ids pers : List Int}
    {states sd : List StateRow} (hs : StatesOfData data ids pers states) {t : ℕ} (ht : IsPeriod m t) (h : getStatesData pm t data states = .ok sd) :
    List.Forall₂ (MergedRow m data ids pers t) states sd := by
  have hobs := (labels_of_ok hpm).2.1
  have hlat : ∀ f ∈ m.factors.map Prod.fst, IsLatent m f := by
    intro f hf
    obtain ⟨fs, hfs, rfl⟩ := List.mem_map.mp hf
    exact ⟨fs.2, hfs⟩
  unfold getStatesData at h
  split_ifs at h with h0
  · obtain rfl := Except.ok.inj h
    rw [List.forall₂_same]
    intro r _
    refine ⟨rfl, fun _ f hf => Or.inl ⟨?_, rfl⟩⟩
    rw [hobs] at h0
    unfold allFactors at hf
    rw [h0, List.append_nil] at hf
    exact hlat f hf
  · cases data with
    | none => cases h
    | some df =>
      simp only [] at h
      rw [py_bind_ok] at h
      obtain ⟨d, hd, h⟩ := h
      rw [py_bind_ok] at h
      obtain ⟨obs, ho, h⟩ := h
      obtain rfl := Except.ok.inj h
      rw [List.forall₂_map_right_iff, List.forall₂_same]
      intro r hr
      refine ⟨rfl, fun hrt f hf => ?_⟩
      obtain ⟨hi, hu, hids, hpers⟩ := hs.index df rfl
      show FactorValue m (some df) ids pers r f (mergedValue pm.labels.observedFactors t obs r f)
      unfold mergedValue
      rcases List.mem_append.mp hf with hf | hf
      · have hno : f ∉ pm.labels.observedFactors := by
          rw [hobs]
          exact fun h => (List.nodup_append.mp hg.distinct).2.2 f hf f h rfl
        rw [if_neg hno]
        exact Or.inl ⟨hlat f hf, rfl⟩
      · rw [if_pos (by rw [hobs]; exact hf), if_pos hrt]
        right
        obtain ⟨_, _, _, _, _, hent⟩ := C27_data_arrays hpm hg.keys hclash hi hu hids hpers hd
        obtain ⟨row, hrow⟩ := exists_rowOf df ids pers t (hs.ids r hr)
        obtain ⟨a, ha⟩ := exists_valueIs m row f
        obtain ⟨w, hw, hk⟩ := (hent r.id t row (hs.ids r hr) ht hrow).2.2 ((m.observedFactors.getD []).idxOf f) f a (by
          rw [List.getElem?_eq_getElem (List.idxOf_lt_length_of_mem hf), List.getElem_idxOf]) ha
        refine ⟨hf, df, row, a, rfl, by rw [hrt]; exact hrow, ha, ?_⟩
        rw [pyIndex_ok] at ho
        unfold entry3 entry2 at hw
        rw [ho] at hw
        simp only [Option.bind_some] at hw
        rw [hobs, hw, hrt]
        exact hk

theorem valuesInPeriod_of {m : ModelDict ℝ} {data : Option (LongData ℝ)} {ids pers : List Int} {states sd : List StateRow} {t : ℕ} (h : List.Forall₂ (MergedRow m data ids pers t) states sd)
    {f : String} (hf : f ∈ allFactors m) : ValuesInPeriod m data ids pers states t f (periodValues sd t f) := by
  have h' : List.Forall₂ (MergedRow m data ids pers t) (states.filter (fun r => decide (r.period = t))) (sd.filter (fun r => r.period == t)) := by
    refine forall₂_filter h ?_
    intro r s hrs
    rw [hrs.1]
    rfl
  refine ⟨(sd.filter (fun r => r.period == t)).map (fun r => r.values f), ?_, ?_⟩
  · rw [List.forall₂_map_right_iff]
    have : ∀ (l : List StateRow) (l' : List StateRow), (∀ r ∈ l, r.period = t) → List.Forall₂ (MergedRow m data ids pers t) l l' →
        List.Forall₂ (fun r s => FactorValue m data ids pers r f (s.values f)) l l' := by
      intro l l' hl hll
      induction hll with
      | nil => exact .nil
      | cons hrs _ ih => exact .cons (hrs.2 (hl _ (List.mem_cons_self ..)) f hf) (ih (fun r hr => hl r (List.mem_cons_of_mem _ hr)))
    exact this _ _ (fun r hr => by simpa using (List.mem_filter.mp hr).2) h'
  · unfold periodValues List.reduceOption
    rw [List.filterMap_map]
    rfl

theorem lookup_mem {γ κ : Type} [BEq κ] [LawfulBEq κ] {xs : List (κ × γ)} {k : κ} {v : γ} (h : xs.lookup k = some v) : (k, v) ∈ xs := by
  induction xs with
  | nil => cases h
  | cons a xs ih =>
    rw [List.lookup_cons] at h
    by_cases hk : (k == a.1) = true
    · rw [hk] at h
      have h := Option.some.inj h
      rw [beq_iff_eq] at hk
      subst h hk
      exact List.mem_cons_self ..
    · rw [Bool.not_eq_true] at hk
      rw [hk] at h
      exact List.mem_cons_of_mem _ (ih h)

theorem mem_periodValues {sd : List StateRow} {t : ℕ} {f : String} {x : ℝ} :
    x ∈ periodValues sd t f ↔ (t, x) ∈ sd.filterMap (fun r => (r.values f).map (fun v => (r.period, v))) := by
  unfold periodValues
  simp only [List.mem_filterMap, List.mem_filter, beq_iff_eq, Option.map_eq_some_iff, Prod.mk.injEq]
  constructor
  · rintro ⟨r, ⟨hr, h1⟩, h2⟩
    exact ⟨r, hr, x, h2, h1, rfl⟩
  · rintro ⟨r, hr, y, h2, h1, rfl⟩
    exact ⟨r, ⟨hr, h1⟩, h2⟩

theorem inputRange_limits {m : ModelDict ℝ} {data : Option (LongData ℝ)} {ids pers : List Int} {states sd : List StateRow} {t : ℕ} (h : List.Forall₂ (MergedRow m data ids pers t) states sd)
    {f : String} (hf : f ∈ allFactors m) {stateRanges : Option (Dict (List (Nat × ℝ × ℝ)))} {range : ℝ × ℝ} (hr : inputRange stateRanges sd f t = .ok range) :
    LimitsAre m data ids pers states t stateRanges f range.1 range.2 := by
  unfold inputRange at hr
  rw [py_bind_ok] at hr
  obtain ⟨table, h1, h2⟩ := hr
  have hl : table.lookup t = some range := by
    cases hl : table.lookup t with
    | none => rw [hl] at h2; cases h2
    | some r => rw [hl] at h2; rw [Except.ok.inj h2]
  constructor
  · rintro ranges rfl
    refine ⟨table, ?_, hl⟩
    simp only [stateRangeTable, Dict.getItem] at h1
    cases hg : Dict.get? ranges f with
    | none => rw [hg] at h1; cases h1
    | some v => rw [hg] at h1; rw [Except.ok.inj h1]
  · rintro rfl
    have h1 := (Except.ok.inj h1).symm
    subst h1
    obtain ⟨_, _, hb⟩ := C53_state_ranges (sd.filterMap (fun r => (r.values f).map (fun v => (r.period, v))))
    obtain ⟨hb, hlo, hhi⟩ := hb t range.1 range.2 (lookup_mem hl)
    refine ⟨_, valuesInPeriod_of h hf, ⟨mem_periodValues.mpr hlo, ?_⟩, ⟨mem_periodValues.mpr hhi, ?_⟩⟩
    · intro x hx
      exact (hb x (mem_periodValues.mp hx)).1
    · intro x hx
      exact (hb x (mem_periodValues.mp hx)).2

/-- The range is found if there is a value in the period. -/
theorem inputRange_exists {sd : List StateRow} {t : ℕ} {f : String} (h : periodValues sd t f ≠ []) : ∃ range, inputRange none sd f t = .ok range := by
  obtain ⟨x, hx⟩ := List.exists_mem_of_ne_nil _ h
  obtain ⟨_, hex, _⟩ := C53_state_ranges (sd.filterMap (fun r => (r.values f).map (fun v => (r.period, v))))
  obtain ⟨lo, hi, hm⟩ := (hex t).mpr ⟨x, mem_periodValues.mp hx⟩
  unfold inputRange
  cases hl : (createStateRange (sd.filterMap (fun r => (r.values f).map (fun v => (r.period, v))))).lookup t with
  | some r =>
    refine ⟨r, ?_⟩
    show (List.lookup t _).elim _ _ = _
    rw [hl]
    rfl
  | none =>
    rw [List.lookup_eq_none_iff] at hl
    simpa using hl _ hm

/-! ### averages -/

theorem groupKeys_spec (xs : List ℝ) : (groupKeys xs).Pairwise (· < ·) ∧ ∀ x, x ∈ groupKeys xs ↔ x ∈ xs := by
  unfold groupKeys
  have hp := List.perm_insertionSort (r := fun a b : ℝ => a ≤ b) xs.dedup
  constructor
  · have h1 := List.pairwise_insertionSort (r := fun a b : ℝ => a ≤ b) xs.dedup
    have h2 : (xs.dedup.insertionSort (· ≤ ·)).Nodup := hp.nodup_iff.mpr (List.nodup_dedup xs)
    exact (h1.and h2).imp (fun h => lt_of_le_of_ne h.1 h.2)
  · intro x
    rw [hp.mem_iff, List.mem_dedup]

theorem group_mean {ι : Type} (chosen : List ι) (g : ι → ℝ → ℝ) (grid : List ℝ) {x : ℝ} (hx : x ∈ grid) :
    let ys := ((chosen.flatMap (fun o => grid.map (fun y => (y, g o y)))).filter (fun p => decide (p.1 = x))).map Prod.snd
    ys.sum / ys.length = (chosen.map (fun o => g o x)).sum / chosen.length := by
  have hblock : ∀ o, ((grid.map (fun y => (y, g o y))).filter (fun p => decide (p.1 = x))).map Prod.snd = List.replicate (grid.count x) (g o x) := by
    intro o
    clear hx
    induction grid with
    | nil => rfl
    | cons a as ih =>
      rw [List.map_cons, List.filter_cons]
      by_cases ha : a = x
      · subst ha
        simp only [decide_true, if_true, List.map_cons, List.count_cons_self, List.replicate_succ]
        rw [ih]
      · have : decide ((a, g o a).1 = x) = false := by simpa using ha
        rw [this, List.count_cons_of_ne ha]
        exact ih
  have hys : ((chosen.flatMap (fun o => grid.map (fun y => (y, g o y)))).filter (fun p => decide (p.1 = x))).map Prod.snd = chosen.flatMap (fun o => List.replicate (grid.count x) (g o x)) := by
    induction chosen with
    | nil => rfl
    | cons o os ih => rw [List.flatMap_cons, List.filter_append, List.map_append, hblock, ih, List.flatMap_cons]
  have hc : (grid.count x : ℝ) ≠ 0 := by
    have := List.count_pos_iff.mpr hx
    exact_mod_cast this.ne'
  have hsum : (chosen.flatMap (fun o => List.replicate (grid.count x) (g o x))).sum = grid.count x * (chosen.map (fun o => g o x)).sum := by
    induction chosen with
    | nil => simp
    | cons o os ih =>
      have ih := ih (by
        clear hys ih
        induction os with
        | nil => rfl
        | cons o os ih => rw [List.flatMap_cons, List.filter_append, List.map_append, hblock, ih, List.flatMap_cons])
      rw [List.flatMap_cons, List.sum_append, ih, List.sum_replicate, List.map_cons, List.sum_cons, nsmul_eq_mul]
      ring
  have hlen : ((chosen.flatMap (fun o => List.replicate (grid.count x) (g o x))).length : ℝ) = grid.count x * chosen.length := by
    rw [List.length_flatMap]
    simp
    ring
  intro ys
  show (List.map Prod.snd _).sum / ((List.map Prod.snd _).length : ℝ) = _
  rw [hys, hsum, hlen, mul_div_mul_left _ _ hc]

end Skill
