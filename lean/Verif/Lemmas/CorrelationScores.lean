import Verif.Lemmas.CorrelationFrames
/- Factor scores and quasi factor scores. -/
namespace Skill
open Spec
variable {α : Type} [OfScientific α] [Neg α] [Zero α] [One α] [OfNat α 2] [DecidableEq α]

/-! ### averages -/

theorem average_perm {xs ys : List ℝ} (h : xs.Perm ys) : average xs = average ys := by
  unfold average
  rw [h.sum_eq, h.length_eq]
  by_cases hx : xs = []
  · subst hx
    rw [if_pos rfl, if_pos (List.Perm.nil_eq h).symm]
  · rw [if_neg hx, if_neg (fun hy => hx (by subst hy; exact h.eq_nil))]

theorem averageOver_eq {P : String → Prop} {V : String → Option ℝ → Prop} {s : Option ℝ} (h : AverageOver P V s) {ns : List String} (hn : ns.Nodup) (hm : ∀ v, v ∈ ns ↔ P v) {g : String → Option ℝ}
    (hg : ∀ v w, V v w → w = g v) : s = average (ns.filterMap g) := by
  obtain ⟨vs, z, h1, h2, h3, rfl⟩ := h
  have hp : vs.Perm ns := (List.perm_ext_iff_of_nodup h1 hn).mpr (fun v => (h2 v).trans (hm v).symm)
  rw [List.filterMap_congr (fun v hv => hg v (z v) (h3 v hv))]
  exact average_perm (hp.filterMap g)

theorem averageOver_intro {P : String → Prop} {V : String → Option ℝ → Prop} {ns : List String} (hn : ns.Nodup) (hm : ∀ v, v ∈ ns ↔ P v) {g : String → Option ℝ} (hg : ∀ v, V v (g v)) :
    AverageOver P V (average (ns.filterMap g)) := ⟨ns, g, hn, hm, fun v _ => hg v, rfl⟩

theorem numbers_ofCell {ι : Type} (ns : List ι) (g : ι → Option ℝ) : FVal.numbers (ns.map (fun v => FVal.ofCell (g v))) = ns.filterMap g := by
  induction ns with
  | nil => rfl
  | cons v ns ih =>
    unfold FVal.numbers at ih ⊢
    rw [List.map_cons, List.filterMap_cons, List.filterMap_cons, ih]
    cases g v <;> rfl

theorem mean_ofCell {ι : Type} (ns : List ι) (g : ι → Option ℝ) : FVal.mean (ns.map (fun v => FVal.ofCell (g v))) = FVal.ofCell (average (ns.filterMap g)) := by
  unfold FVal.mean
  rw [if_neg, numbers_ofCell]
  · unfold average
    cases h : ns.filterMap g with
    | nil => simp [FVal.ofCell]
    | cons a l => simp [FVal.ofCell]
  · simp only [List.any_map, List.any_eq_true, Function.comp, not_exists, not_and]
    intro v _
    cases g v <;> simp [FVal.ofCell]

/-- The mean of some columns. -/
theorem rowMeans_column {n : ℕ} {ι : Type} {ns : List ι} {col : ι → List FVal} {g : Fin n → ι → Option ℝ} (h : ∀ v ∈ ns, ∀ i : Fin n, (col v).getD i .nan = FVal.ofCell (g i v)) :
    Column (rowMeans n (ns.map col)) (fun i : Fin n => average (ns.filterMap (g i))) := by
  unfold Column rowMeans
  refine List.ext_getElem (by simp) (fun i h1 h2 => ?_)
  have hi : i < n := by simpa using h1
  simp only [List.getElem_map, List.getElem_range, List.getElem_ofFn]
  have e : List.map (fun c : List FVal => c.getD i .nan) (ns.map col) = ns.map (fun v => FVal.ofCell (g ⟨i, hi⟩ v)) := by
    rw [List.map_map]
    exact List.map_congr_left (fun v hv => h v hv ⟨i, hi⟩)
  rw [e, mean_ofCell, FVal.toOption_ofCell]

/-! ### standardized variables -/

theorem numbers_column {n : ℕ} {xs : List FVal} {x : Fin n → Option ℝ} (hx : Column xs x) : FVal.numbers xs = (List.ofFn x).filterMap id := by
  rw [← hx, List.filterMap_map]
  unfold FVal.numbers
  refine List.filterMap_congr (fun v _ => ?_)
  cases v <;> rfl

theorem sum_numbers {n : ℕ} {xs : List FVal} {x : Fin n → Option ℝ} (hx : Column xs x) (G : ℝ → ℝ) :
    ((FVal.numbers xs).map G).sum = ∑ i ∈ Finset.univ.filter (fun i => (x i).isSome), G ((x i).getD 0) := by
  rw [numbers_column hx, sum_filterMap_ofFn, Finset.sum_filter]
  refine Finset.sum_congr rfl (fun i _ => ?_)
  cases x i <;> simp

theorem length_numbers {n : ℕ} {xs : List FVal} {x : Fin n → Option ℝ} (hx : Column xs x) : ((FVal.numbers xs).length) = (Finset.univ.filter (fun i => (x i).isSome)).card := by
  have := sum_numbers hx (fun _ => 1)
  have h2 : ((FVal.numbers xs).length : ℝ) = ((Finset.univ.filter (fun i => (x i).isSome)).card : ℝ) := by simpa using this
  exact_mod_cast h2

theorem sumOfProducts_zero {ι : Type} {s : Finset ι} {X : ι → ℝ} : sumOfProducts s X X = 0 ↔ ∀ i ∈ s, X i = sampleMean s X := by
  unfold sumOfProducts
  rw [Finset.sum_eq_zero_iff_of_nonneg (fun i _ => mul_self_nonneg _)]
  simp only [mul_self_eq_zero, sub_eq_zero]

theorem sumOfProducts_card {ι : Type} {s : Finset ι} {X : ι → ℝ} (h : s.card < 2) : sumOfProducts s X X = 0 := by
  rw [sumOfProducts_zero]
  intro i hi
  have h1 : s.card = 1 := by
    have := Finset.card_pos.mpr ⟨i, hi⟩
    omega
  obtain ⟨j, rfl⟩ := Finset.card_eq_one.mp h1
  rw [Finset.mem_singleton] at hi
  subst hi
  simp [sampleMean]

/-- The column of standardized values. -/
theorem standardize_getD {n : ℕ} {xs : List FVal} {x : Fin n → Option ℝ} (hx : xs = (List.ofFn x).map FVal.ofCell) (i : Fin n) : (standardize xs).getD i .nan = FVal.ofCell (standardized x i) := by
  have hc : Column xs x := by
    subst hx
    unfold Column
    rw [List.map_map]
    conv_rhs => rw [← List.map_id (List.ofFn x)]
    exact List.map_congr_left (fun a _ => FVal.toOption_ofCell a)
  set s := Finset.univ.filter (fun i => (x i).isSome) with hs
  set X := fun i => (x i).getD 0 with hX
  have hlen := length_numbers hc
  have hmean : (FVal.numbers xs).sum / (FVal.numbers xs).length = sampleMean s X := by
    have := sum_numbers hc id
    rw [List.map_id] at this
    rw [this, hlen]
    rfl
  have hss : ((FVal.numbers xs).map (fun y => (y - sampleMean s X) ^ 2)).sum = sumOfProducts s X X := by
    rw [sum_numbers hc]
    exact Finset.sum_congr rfl (fun i _ => sq _)
  have hget : xs[(i : ℕ)]? = some (FVal.ofCell (x i)) := by
    rw [hx]
    simp
  unfold standardize
  dsimp only
  rw [hmean, hss, hlen, List.getD_eq_getElem?_getD, List.getElem?_map, hget, Option.map_some, Option.getD_some]
  unfold standardized
  dsimp only
  by_cases hcard : s.card < 2
  · rw [if_pos hcard, if_pos (sumOfProducts_card hcard)]
    rfl
  · rw [if_neg hcard]
    have hpos : (0 : ℝ) < (s.card : ℝ) - 1 := by
      have : (2 : ℝ) ≤ s.card := by exact_mod_cast not_lt.mp hcard
      linarith
    have hsd : Real.sqrt (sumOfProducts s X X / (s.card - 1)) = 0 ↔ sumOfProducts s X X = 0 := by
      rw [Real.sqrt_eq_zero (div_nonneg (sumOfProducts_nonneg s X) hpos.le), div_eq_zero_iff]
      exact or_iff_left hpos.ne'
    cases hxi : x i with
    | none =>
      split <;> rfl
    | some y =>
      simp only [FVal.ofCell, FVal.sub, FVal.div]
      by_cases h0 : sumOfProducts s X X = 0
      · rw [if_pos (hsd.mpr h0), if_pos h0]
        have hy : y = sampleMean s X := by
          have := sumOfProducts_zero.mp h0 i (by simp [hs, hxi])
          simpa [hX, hxi] using this
        rw [if_pos (by rw [hy, sub_self])]
      · rw [if_neg (fun h => h0 (hsd.mp h)), if_neg h0]
        rfl

/-! ### parameters of the measurement equations -/

theorem find_of_nodup {κ : Type} [DecidableEq κ] {l : List (κ × ℝ)} (hn : (l.map Prod.fst).Nodup) {k : κ} {x : ℝ} (h : (k, x) ∈ l) : seriesLoc l k = .ok x := by
  unfold seriesLoc
  cases hf : l.find? (fun kv => decide (kv.1 = k)) with
  | none =>
    have := List.find?_eq_none.mp hf _ h
    simp at this
  | some kv =>
    have h1 := List.mem_of_find?_eq_some hf
    have h2 := List.find?_some hf
    rw [decide_eq_true_iff] at h2
    obtain ⟨k', y⟩ := kv
    simp only at h2
    subst h2
    have : ((k', y) : κ × ℝ) = (k', x) := List.inj_on_of_nodup_map hn h1 h rfl
    cases this
    rfl

theorem periodLoadings_nodup {params : List (Loc × ℝ)} (hn : (params.map Prod.fst).Nodup) (t : ℕ) : ((periodLoadings params t).map Prod.fst).Nodup := by
  unfold periodLoadings
  rw [List.map_map, List.Nodup, List.pairwise_map]
  rw [List.Nodup, List.pairwise_map] at hn
  refine (hn.filter _).imp_of_mem (fun {a b} ha hb hab he => hab ?_)
  simp only [List.mem_filter, Bool.and_eq_true, decide_eq_true_iff, Function.comp, Prod.mk.injEq] at ha hb he
  obtain ⟨⟨c, p, x, y⟩, _⟩ := a
  obtain ⟨⟨c', p', x', y'⟩, _⟩ := b
  simp only at ha hb he
  rw [ha.2.1, hb.2.1, ha.2.2, hb.2.2, he.1, he.2]

theorem periodIntercepts_nodup {params : List (Loc × ℝ)} (hn : (params.map Prod.fst).Nodup) (t : ℕ) : ((periodIntercepts params t).map Prod.fst).Nodup := by
  unfold periodIntercepts
  rw [List.map_map, List.Nodup, List.pairwise_map]
  rw [List.Nodup, List.pairwise_map] at hn
  refine (hn.filter _).imp_of_mem (fun {a b} ha hb hab he => hab ?_)
  simp only [List.mem_filter, Bool.and_eq_true, decide_eq_true_iff, Function.comp] at ha hb he
  obtain ⟨⟨c, p, x, y⟩, _⟩ := a
  obtain ⟨⟨c', p', x', y'⟩, _⟩ := b
  simp only at ha hb he
  rw [ha.2.1.1, hb.2.1.1, ha.2.1.2, hb.2.1.2, he, ha.2.2, hb.2.2]

variable {m : ModelDict α} {params : List (Loc × ℝ)} {val : Loc → ℝ} {periods : List ℕ}

theorem mem_params (hq : ScoreParams m params val periods) {l : Loc} (h : IsParam m l) : (l, val l) ∈ params := by
  obtain ⟨lx, hlx, rfl⟩ := List.mem_map.mp ((hq.labels l).mpr h)
  have := hq.values lx hlx
  obtain ⟨l, x⟩ := lx
  simp only at this
  rw [← this]
  exact hlx

theorem mem_periodLoadings (hq : ScoreParams m params val periods) {t : ℕ} {v f : String} {x : ℝ} : ((v, f), x) ∈ periodLoadings params t ↔ IsParam m ⟨.loadings, t, v, f⟩ ∧ x = val ⟨.loadings, t, v, f⟩ := by
  unfold periodLoadings
  simp only [List.mem_map, List.mem_filter, Bool.and_eq_true, decide_eq_true_iff]
  constructor
  · rintro ⟨⟨⟨c, p, a, b⟩, y⟩, ⟨hm, rfl, rfl⟩, h⟩
    simp only [Prod.mk.injEq] at h
    obtain ⟨⟨rfl, rfl⟩, rfl⟩ := h
    exact ⟨(hq.labels _).mp (List.mem_map.mpr ⟨_, hm, rfl⟩), hq.values _ hm⟩
  · rintro ⟨h, rfl⟩
    exact ⟨_, ⟨mem_params hq h, rfl, rfl⟩, rfl⟩

theorem mem_periodIntercepts (hq : ScoreParams m params val periods) {t : ℕ} {v : String} (h : IsParam m ⟨.controls, t, v, "constant"⟩) :
    (v, val ⟨.controls, t, v, "constant"⟩) ∈ periodIntercepts params t := by
  unfold periodIntercepts
  simp only [List.mem_map, List.mem_filter, Bool.and_eq_true, decide_eq_true_iff]
  exact ⟨_, ⟨mem_params hq h, ⟨rfl, rfl⟩, rfl⟩, rfl⟩

theorem isParam_loading_iff {t : ℕ} {v f : String} : IsParam m ⟨.loadings, t, v, f⟩ ↔ IsLatent m f ∧ (Measures m t v f ∨ (IsPeriod m t ∧ Anchors m v f)) := by
  constructor
  · intro h
    cases h with
    | loading h1 h2 => exact ⟨h1, h2⟩
  · rintro ⟨h1, h2⟩
    exact .loading h1 h2

theorem measures_latent {t : ℕ} {v f : String} (h : Measures m t v f) : IsLatent m f := by
  obtain ⟨spec, h, _⟩ := h
  exact ⟨spec, h⟩

/-- Measurements of several factors are left out. -/
theorem leaveOut_iff (hq : ScoreParams m params val periods) {t : ℕ} (ht : t ∈ periods) {v f : String} (h : MeasurementOf m t v f) : leaveOut (periodLoadings params t) v = false ↔ DedicatedTo m t v f := by
  classical
  set L := (periodLoadings params t).filter (fun kv => decide (kv.1.1 = v) && decide (kv.2 ≠ 0)) with hL
  have hmem : ∀ g x, ((v, g), x) ∈ L ↔ Measures m t v g ∧ x = val ⟨.loadings, t, v, g⟩ := by
    intro g x
    rw [hL, List.mem_filter, mem_periodLoadings hq, isParam_loading_iff]
    simp only [decide_true, Bool.true_and, decide_eq_true_iff]
    constructor
    · rintro ⟨⟨⟨h1, h2⟩, rfl⟩, h3⟩
      exact ⟨h2.resolve_right (fun h' => h.2 ⟨g, h'.2⟩), rfl⟩
    · rintro ⟨h1, rfl⟩
      exact ⟨⟨⟨measures_latent h1, Or.inl h1⟩, rfl⟩, hq.nonzero t ht v g h1⟩
  have hname : ∀ kv ∈ L, kv.1.1 = v := fun kv hkv => by
    have := (List.mem_filter.mp hkv).2
    simp only [Bool.and_eq_true, decide_eq_true_iff] at this
    exact this.1
  have hnd : L.Nodup := ((periodLoadings_nodup hq.distinct t).of_map).filter _
  have hlo : leaveOut (periodLoadings params t) v = false ↔ L.length ≤ 1 := by
    unfold leaveOut
    rw [decide_eq_false_iff_not, not_lt, hL]
  have hf : ((v, f), val ⟨.loadings, t, v, f⟩) ∈ L := (hmem f _).mpr ⟨h.1, rfl⟩
  rw [hlo]
  constructor
  · intro hle
    refine ⟨h, fun g hg => ?_⟩
    have hg' : ((v, g), val ⟨.loadings, t, v, g⟩) ∈ L := (hmem g _).mpr ⟨hg, rfl⟩
    have hlen : L.length = 1 := le_antisymm hle (List.length_pos_of_mem hf)
    obtain ⟨a, ha⟩ := List.length_eq_one_iff.mp hlen
    rw [ha, List.mem_singleton] at hf hg'
    rw [← hf] at hg'
    simp only [Prod.mk.injEq] at hg'
    exact hg'.1.2
  · rintro ⟨_, hd⟩
    have : L ⊆ [((v, f), val ⟨.loadings, t, v, f⟩)] := by
      rintro ⟨⟨a, g⟩, x⟩ hx
      have ha : a = v := hname _ hx
      subst ha
      obtain ⟨h1, rfl⟩ := (hmem g x).mp hx
      rw [hd g h1]
      exact List.mem_singleton.mpr rfl
    exact (List.subperm_of_subset hnd this).length_le

end Skill
