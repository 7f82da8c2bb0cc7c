import Verif.Spec.Data
import Verif.Lemmas.Constraints
import Mathlib.Data.List.Sort
/- Lemmas for process_data.py. -/
namespace Skill
open Spec
variable {V : Type}

theorem levelCode_lt {level : List Int} {x y : Int} (hx : x ∈ level) (h : x < y) : levelCode level x < levelCode level y := by
  unfold levelCode
  rw [← List.countP_eq_length_filter, ← List.countP_eq_length_filter]
  induction level with
  | nil => simp at hx
  | cons a l ih =>
    have hle : l.countP (fun z => decide (z < x)) ≤ l.countP (fun z => decide (z < y)) :=
      List.countP_mono_left (fun z _ hz => by simp only [decide_eq_true_eq] at hz ⊢; omega)
    simp only [List.countP_cons, decide_eq_true_eq]
    rcases List.mem_cons.mp hx with rfl | hx
    · simp [h]; omega
    · have := ih hx
      split_ifs <;> omega

theorem levelCode_inj {level : List Int} {x y : Int} (hx : x ∈ level) (hy : y ∈ level) (h : levelCode level x = levelCode level y) : x = y := by
  rcases lt_trichotomy x y with hl | hl | hl
  · have := levelCode_lt hx hl; omega
  · exact hl
  · have := levelCode_lt hy hl; omega

theorem levelCode_lt_length {level : List Int} {x : Int} (hx : x ∈ level) : levelCode level x < level.length := by
  unfold levelCode
  rw [← List.countP_eq_length_filter]
  rcases Nat.lt_or_ge (level.countP (fun y => decide (y < x))) level.length with h | h
  · exact h
  · have := List.countP_eq_length.mp (le_antisymm List.countP_le_length h) x hx
    simp at this

theorem levelCode_perm {l l' : List Int} (h : l.Perm l') (x : Int) : levelCode l x = levelCode l' x := by
  unfold levelCode
  exact (h.filter _).length_eq

/-- In an increasing list the code of a value is its position. -/
theorem levelCode_sorted {l : List Int} (hs : l.Pairwise (· < ·)) {t : Nat} {x : Int} (h : l[t]? = some x) : levelCode l x = t := by
  induction l generalizing t with
  | nil => simp at h
  | cons a l ih =>
    rw [List.pairwise_cons] at hs
    unfold levelCode at ih ⊢
    cases t with
    | zero =>
      simp only [List.getElem?_cons_zero, Option.some.injEq] at h
      subst h
      rw [List.length_eq_zero_iff, List.filter_eq_nil_iff]
      intro y hy
      rcases List.mem_cons.mp hy with rfl | hy
      · simp
      · have := hs.1 y hy; simp; omega
    | succ t =>
      simp only [List.getElem?_cons_succ] at h
      have hax := hs.1 x (List.mem_of_getElem? h)
      rw [List.filter_cons_of_pos (by simpa using hax), List.length_cons, ih hs.2 h]

/-- The codes of the individuals, in increasing order. -/
theorem codes_eq {df : LongData V} (hi : IndexOk df) {ids : List Int} (hids : IdsOf df ids) :
    (List.range df.idLevel.length).filter (fun i => (df.rows.map (fun r => (levelCode df.idLevel r.id, levelCode df.periodLevel r.period, r.cell))).any (fun r => r.1 == i))
      = ids.map (levelCode df.idLevel) := by
  apply List.Perm.eq_of_pairwise' (r := (· < ·)) (List.pairwise_lt_range.filter _)
  · rw [List.pairwise_map]
    refine hids.1.imp_of_mem (fun {a b} ha hb hlt => ?_)
    obtain ⟨r, hr, rfl⟩ := (hids.2 a).mp ha
    exact levelCode_lt (hi.ids r hr) hlt
  · rw [List.perm_ext_iff_of_nodup]
    · intro i
      simp only [List.mem_filter, List.mem_range, List.any_map, List.any_eq_true, Function.comp, beq_iff_eq, List.mem_map]
      constructor
      · rintro ⟨_, r, hr, rfl⟩
        exact ⟨r.id, (hids.2 _).mpr ⟨r, hr, rfl⟩, rfl⟩
      · rintro ⟨x, hx, rfl⟩
        obtain ⟨r, hr, rfl⟩ := (hids.2 x).mp hx
        exact ⟨levelCode_lt_length (hi.ids r hr), r, hr, rfl⟩
    · exact List.nodup_range.filter _
    · rw [List.nodup_map_iff_inj_on (hids.1.imp (fun h => ne_of_lt h))]
      intro x hx y hy h
      obtain ⟨r, hr, rfl⟩ := (hids.2 x).mp hx
      obtain ⟨q, hq, rfl⟩ := (hids.2 y).mp hy
      exact levelCode_inj (hi.ids r hr) (hi.ids q hq) h

/-- The code of a period is its position among the periods of the data. -/
theorem periodCode {df : LongData V} (hi : IndexOk df) (hu : NoUnusedPeriods df) {pers : List Int} (hp : PeriodsOf df pers) {r : LongRow V} (hr : r ∈ df.rows) (t : Nat) :
    levelCode df.periodLevel r.period = t ↔ pers[t]? = some r.period := by
  have hperm : df.periodLevel.Perm pers := by
    rw [List.perm_ext_iff_of_nodup hi.periodNodup (hp.1.imp (fun h => ne_of_lt h))]
    intro p
    rw [hp.2]
    exact ⟨hu p, fun ⟨q, hq, h⟩ => h ▸ hi.periods q hq⟩
  rw [levelCode_perm hperm]
  constructor
  · rintro rfl
    obtain ⟨s, hs⟩ := List.getElem?_of_mem ((hp.2 r.period).mpr ⟨r, hr, rfl⟩)
    rwa [levelCode_sorted hp.1 hs]
  · exact levelCode_sorted hp.1

theorem uniqueKeys_iff {df : LongData V} (hi : IndexOk df) :
    ((df.rows.map (fun r => (levelCode df.idLevel r.id, levelCode df.periodLevel r.period, r.cell))).map (fun r => (r.1, r.2.1))).Nodup ↔ UniqueKeys df := by
  unfold UniqueKeys
  rw [List.map_map, List.Nodup, List.Nodup, List.pairwise_map, List.pairwise_map]
  refine List.Pairwise.iff_of_mem (fun {a b} ha hb => not_congr ?_)
  simp only [Function.comp, Prod.mk.injEq]
  constructor
  · rintro ⟨h1, h2⟩
    exact ⟨levelCode_inj (hi.ids a ha) (hi.ids b hb) h1, levelCode_inj (hi.periods a ha) (hi.periods b hb) h2⟩
  · rintro ⟨h1, h2⟩; rw [h1, h2]; exact ⟨rfl, rfl⟩

/-- The cells of the grid of individuals and periods. -/
def gridCell (df : LongData V) (i t : Nat) : String → Option V :=
  match (df.rows.map (fun r => (levelCode df.idLevel r.id, levelCode df.periodLevel r.period, r.cell))).find? (fun r => r.1 == i && r.2.1 == t) with
  | some r => r.2.2
  | none => fun _ => none

theorem preProcess_eq {df : LongData V} (periods : List Nat) (hi : IndexOk df) {ids : List Int} (hids : IdsOf df ids) (hk : UniqueKeys df) :
    preProcessData df periods = .ok { columns := df.columns, rows := (ids.map (levelCode df.idLevel)).flatMap (fun i => periods.map (fun t => ⟨i, t, gridCell df i t⟩)) } := by
  have h1 := (uniqueKeys_iff hi).mpr hk
  unfold preProcessData
  simp only [codes_eq hi hids]
  rw [if_pos h1]
  rfl

theorem preProcess_error {df : LongData V} (periods : List Nat) (hi : IndexOk df) (hk : ¬UniqueKeys df) : preProcessData df periods = .error .valueError := by
  have h1 := (not_congr (uniqueKeys_iff hi)).mpr hk
  unfold preProcessData
  simp only []
  rw [if_neg h1]

theorem preProcess_ok {df : LongData V} {periods : List Nat} {out : DataFrame V} (hi : IndexOk df) {ids : List Int} (hids : IdsOf df ids)
    (h : preProcessData df periods = .ok out) : UniqueKeys df ∧ out = { columns := df.columns, rows := (ids.map (levelCode df.idLevel)).flatMap (fun i => periods.map (fun t => ⟨i, t, gridCell df i t⟩)) } := by
  by_cases hk : UniqueKeys df
  · rw [preProcess_eq periods hi hids hk] at h
    exact ⟨hk, (Except.ok.inj h).symm⟩
  · rw [preProcess_error periods hi hk] at h
    cases h

theorem gridCell_eq {df : LongData V} (hi : IndexOk df) (hu : NoUnusedPeriods df) (hk : UniqueKeys df) {ids pers : List Int} (hids : IdsOf df ids) (hp : PeriodsOf df pers)
    {i t : Nat} {x : Int} (hx : ids[i]? = some x) {r : Option (LongRow V)} (hr : RowOf df ids pers i t r) (c : String) :
    gridCell df (levelCode df.idLevel x) t c = r.bind (fun row => row.cell c) := by
  unfold gridCell
  have key : ∀ q ∈ df.rows, (levelCode df.idLevel q.id = levelCode df.idLevel x ∧ levelCode df.periodLevel q.period = t) ↔ (ids[i]? = some q.id ∧ pers[t]? = some q.period) := by
    intro q hq
    rw [periodCode hi hu hp hq, hx]
    refine and_congr_left (fun _ => ?_)
    obtain ⟨q', hq', hxq⟩ := (hids.2 x).mp (List.mem_of_getElem? hx)
    constructor
    · intro h; rw [levelCode_inj (hi.ids q hq) (hxq ▸ hi.ids q' hq') h]
    · rintro h; rw [Option.some.inj h]
  cases hf : (df.rows.map (fun r => (levelCode df.idLevel r.id, levelCode df.periodLevel r.period, r.cell))).find? (fun r => r.1 == levelCode df.idLevel x && r.2.1 == t) with
  | none =>
    cases r with
    | none => rfl
    | some r =>
      rw [List.find?_eq_none] at hf
      have := hf _ (List.mem_map_of_mem hr.1)
      simp only [Bool.and_eq_true, beq_iff_eq] at this
      exact absurd ((key r hr.1).mpr hr.2) this
  | some z =>
    have hz := List.mem_of_find?_eq_some hf
    have hz2 := List.find?_some hf
    obtain ⟨q, hq, rfl⟩ := List.mem_map.mp hz
    simp only [Bool.and_eq_true, beq_iff_eq] at hz2
    have hq2 := (key q hq).mp hz2
    cases r with
    | none => exact absurd hq2 (hr.2 q hq)
    | some r =>
      have : q = r := by
        apply List.inj_on_of_nodup_map hk hq hr.1
        have h1 := hq2.1.symm.trans hr.2.1
        have h2 := hq2.2.symm.trans hr.2.2
        rw [Option.some.inj h1, Option.some.inj h2]
      rw [this]; rfl

/-- The codes of the individuals. -/
def idCodes (df : LongData V) : List Nat :=
  (List.range df.idLevel.length).filter (fun i => (df.rows.map (fun r => (levelCode df.idLevel r.id, levelCode df.periodLevel r.period, r.cell))).any (fun r => r.1 == i))

theorem preProcess_grid {df : LongData V} {periods : List Nat} {out : DataFrame V} (h : preProcessData df periods = .ok out) :
    out.columns = df.columns ∧ out.rows = (idCodes df).flatMap (fun i => periods.map (fun t => ⟨i, t, gridCell df i t⟩)) := by
  unfold preProcessData at h
  simp only [] at h
  split_ifs at h with hn
  rw [← Except.ok.inj h]
  exact ⟨rfl, rfl⟩

/-- The cells of a row after the copies of the anchoring outcomes were added one after the other. -/
def applyCopies (pairs : List (String × String)) (cell : String → Option V) : String → Option V :=
  pairs.foldl (fun cell p => Function.update cell (anchoringName p.2 p.1) (cell p.2)) cell

theorem addCopies_ok {outs : Dict String} (pairs : List (String × String)) (hp : ∀ p ∈ pairs, Dict.getItem outs p.1 = .ok p.2) {df out : DataFrame V}
    (h : (pairs.map Prod.fst).foldlM (fun (df : DataFrame V) factor => (do
      let outcome ← Dict.getItem outs factor
      if outcome ∈ df.columns then pure (assignColumn df (anchoringName outcome factor) (fun r => r.cell outcome))
      else .error .keyError : Py (DataFrame V))) df = .ok out) :
    out.rows = df.rows.map (fun r => { r with cell := applyCopies pairs r.cell }) ∧
    (∀ c, c ∈ out.columns ↔ c ∈ df.columns ∨ ∃ p ∈ pairs, c = anchoringName p.2 p.1) := by
  induction pairs generalizing df with
  | nil =>
    simp only [List.map_nil, List.foldlM_nil] at h
    rw [← Except.ok.inj h]
    simp [applyCopies]
  | cons p pairs ih =>
    simp only [List.map_cons, List.foldlM_cons] at h
    obtain ⟨df1, h1, h2⟩ := py_bind_ok.mp h
    obtain ⟨o, ho, h1⟩ := py_bind_ok.mp h1
    rw [hp p List.mem_cons_self] at ho
    obtain rfl := Except.ok.inj ho
    split_ifs at h1 with hc
    obtain rfl := Except.ok.inj h1
    obtain ⟨e1, e2⟩ := ih (fun q hq => hp q (List.mem_cons_of_mem _ hq)) h2
    constructor
    · rw [e1]
      simp only [assignColumn, List.map_map]
      rfl
    · intro c
      rw [e2]
      simp only [assignColumn, List.mem_cons, exists_eq_or_imp]
      split_ifs with hm
      · constructor
        · rintro (h | h)
          · exact Or.inl h
          · exact Or.inr (Or.inr h)
        · rintro (h | h | h)
          · exact Or.inl h
          · exact Or.inl (h ▸ hm)
          · exact Or.inr h
      · simp only [List.mem_append, List.mem_singleton]
        tauto

theorem applyCopies_other {pairs : List (String × String)} {cell : String → Option V} {c : String} (h : ∀ p ∈ pairs, c ≠ anchoringName p.2 p.1) :
    applyCopies pairs cell c = cell c := by
  induction pairs generalizing cell with
  | nil => rfl
  | cons p pairs ih =>
    have := ih (cell := Function.update cell (anchoringName p.2 p.1) (cell p.2)) (fun q hq => h q (List.mem_cons_of_mem _ hq))
    unfold applyCopies at this ⊢
    rw [List.foldl_cons, this, Function.update_of_ne (h p List.mem_cons_self)]

theorem applyCopies_copy {pairs : List (String × String)} {cell : String → Option V}
    (h1 : ∀ p ∈ pairs, ∀ q ∈ pairs, p.2 ≠ anchoringName q.2 q.1)
    (h2 : ∀ p ∈ pairs, ∀ q ∈ pairs, anchoringName p.2 p.1 = anchoringName q.2 q.1 → p.2 = q.2)
    {p : String × String} (hp : p ∈ pairs) : applyCopies pairs cell (anchoringName p.2 p.1) = cell p.2 := by
  induction pairs generalizing cell p with
  | nil => simp at hp
  | cons p0 pairs ih =>
    have ih' := fun q hq => ih (cell := Function.update cell (anchoringName p0.2 p0.1) (cell p0.2))
      (fun a ha b hb => h1 a (List.mem_cons_of_mem _ ha) b (List.mem_cons_of_mem _ hb))
      (fun a ha b hb => h2 a (List.mem_cons_of_mem _ ha) b (List.mem_cons_of_mem _ hb)) (p := q) hq
    have ho := applyCopies_other (pairs := pairs) (cell := Function.update cell (anchoringName p0.2 p0.1) (cell p0.2)) (c := anchoringName p.2 p.1)
    unfold applyCopies at ih' ho ⊢
    rw [List.foldl_cons]
    by_cases hl : ∃ q ∈ pairs, anchoringName p.2 p.1 = anchoringName q.2 q.1
    · obtain ⟨q, hq, e⟩ := hl
      rw [e, ih' q hq, Function.update_of_ne (h1 q (List.mem_cons_of_mem _ hq) p0 List.mem_cons_self), h2 p hp q (List.mem_cons_of_mem _ hq) e]
    · push Not at hl
      rw [ho hl]
      rcases List.mem_cons.mp hp with rfl | hp
      · rw [Function.update_self]
      · exact absurd rfl (hl p hp)

/-- The cells before the controls are handled. -/
def fullCell [One V] (df : LongData V) (outs : Dict String) (i t : Nat) : String → Option V :=
  applyCopies outs (Function.update (gridCell df i t) "constant" (some 1))

/-- The cells of the processed data. -/
def finalCell [One V] (df : LongData V) (outs : Dict String) (controls : List String) (u : List URow) (i t : Nat) : String → Option V :=
  if isProblem controls (getPeriodMeasurements u t) (⟨i, t, fullCell df outs i t⟩ : DataRow V) then fun _ => none else fullCell df outs i t

theorem periodData_grid {codes : List Nat} {n t : Nat} (ht : t < n) (h : Nat → Nat → DataRow V) (hper : ∀ (i s : Nat), (h i s).period = s) (cols : List String) :
    periodData { columns := cols, rows := codes.flatMap (fun i => (List.range n).map (h i)) } t = codes.map (fun i => h i t) := by
  unfold periodData
  simp only []
  rw [List.filter_flatMap]
  induction codes with
  | nil => rfl
  | cons i codes ih =>
    rw [List.flatMap_cons, ih, List.map_cons, List.filter_map]
    have : (List.range n).filter ((fun r : DataRow V => r.period == t) ∘ h i) = [t] := by
      have : ((fun r : DataRow V => r.period == t) ∘ h i) = (fun s => s == t) := by funext s; simp [hper]
      rw [this, List.filter_beq, List.count_eq_one_of_mem List.nodup_range (List.mem_range.mpr ht)]
      rfl
    rw [this]; rfl

theorem mapM_eq_map {β γ : Type} {f : β → Py γ} {g : β → γ} {xs : List β} {ys : List γ} (h : xs.mapM f = .ok ys) (hf : ∀ x ∈ xs, ∀ y, f x = .ok y → y = g x) :
    ys = xs.map g := by
  rw [mapM_ok_iff] at h
  induction h with
  | nil => rfl
  | cons h1 _ ih =>
    rw [List.map_cons, hf _ List.mem_cons_self _ h1, ih (fun x hx => hf x (List.mem_cons_of_mem _ hx))]

theorem checkData_ok [DecidableEq V] {df : DataFrame V} {u : List URow} {l : Labels} {purpose : DataPurpose} (h : checkData df u l purpose = .ok ()) {t : Nat} (ht : t ∈ l.periods) :
    (∀ c ∈ l.controls, c ∈ df.columns ∧ ∃ r ∈ periodData df t, (r.cell c).isSome) ∧
    (purpose = .estimation → ∀ v ∈ getPeriodMeasurements u t, v ∈ df.columns ∧ hasNoVariance ((periodData df t).map (fun r => r.cell v)) = false) ∧
    (∀ f ∈ l.observedFactors, f ∈ df.columns ∧ ∀ r ∈ periodData df t, (r.cell f).isSome) := by
  unfold checkData at h
  split_ifs at h with hr
  unfold dataReport at hr
  rw [List.flatMap_eq_nil_iff] at hr
  have hr := hr t ht
  simp only [List.append_eq_nil_iff, List.map_eq_nil_iff, List.filter_eq_nil_iff, Bool.or_eq_true, decide_eq_true_eq, not_or, not_not, List.all_eq_true, List.any_eq_true, Bool.not_eq_true] at hr
  obtain ⟨⟨h1, h2⟩, h3⟩ := hr
  refine ⟨fun c hc => ⟨(h1 c hc).1, ?_⟩, fun hp v hv => ?_, fun f hf => ⟨(h3 f hf).1, fun r hr => ?_⟩⟩
  · have := (h1 c hc).2
    push Not at this
    obtain ⟨r, hr, hs⟩ := this
    exact ⟨r, hr, by simpa [Option.isSome_iff_ne_none] using hs⟩
  · rw [if_pos hp, List.map_eq_nil_iff, List.filter_eq_nil_iff] at h2
    have := h2 v hv
    simp only [Bool.or_eq_true, decide_eq_true_eq, not_or, not_not, Bool.not_eq_true] at this
    exact this
  · have := (h3 f hf).2
    push Not at this
    simpa [Option.isSome_iff_ne_none] using this r hr

theorem hasNoVariance_iff [DecidableEq V] (values : List (Option V)) : hasNoVariance values = true ↔ ∃ y, ∀ y', some y' ∈ values ↔ y' = y := by
  unfold hasNoVariance
  have hmem : ∀ y, some y ∈ values ↔ y ∈ values.filterMap id := by
    intro y; simp
  simp only [hmem]
  cases values.filterMap id with
  | nil =>
    constructor
    · intro h; cases h
    · rintro ⟨y, hy⟩
      have := (hy y).mpr rfl
      simp at this
  | cons x xs =>
    simp only [List.all_eq_true, decide_eq_true_eq, List.mem_cons]
    constructor
    · intro h
      refine ⟨x, fun y' => ⟨?_, fun h' => Or.inl h'⟩⟩
      rintro (h' | h')
      · exact h'
      · exact h y' h'
    · rintro ⟨y, hy⟩ z hz
      rw [(hy z).mp (Or.inr hz), (hy x).mp (Or.inl rfl)]

theorem checkData_ok_iff [DecidableEq V] {df : DataFrame V} {u : List URow} {l : Labels} {purpose : DataPurpose} : checkData df u l purpose = .ok () ↔ ∀ t ∈ l.periods,
    (∀ c ∈ l.controls, c ∈ df.columns ∧ ∃ r ∈ periodData df t, (r.cell c).isSome) ∧
    (purpose = .estimation → ∀ v ∈ getPeriodMeasurements u t, v ∈ df.columns ∧ hasNoVariance ((periodData df t).map (fun r => r.cell v)) = false) ∧
    (∀ f ∈ l.observedFactors, f ∈ df.columns ∧ ∀ r ∈ periodData df t, (r.cell f).isSome) := by
  refine ⟨fun h t ht => checkData_ok h ht, fun h => ?_⟩
  unfold checkData
  rw [if_pos]
  unfold dataReport
  rw [List.flatMap_eq_nil_iff]
  intro t ht
  obtain ⟨h1, h2, h3⟩ := h t ht
  simp only [List.append_eq_nil_iff, List.map_eq_nil_iff, List.filter_eq_nil_iff, Bool.or_eq_true, decide_eq_true_eq, not_or, not_not, List.all_eq_true, List.any_eq_true, Bool.not_eq_true]
  refine ⟨⟨fun c hc => ⟨(h1 c hc).1, ?_⟩, ?_⟩, fun f hf => ⟨(h3 f hf).1, ?_⟩⟩
  · intro hall
    obtain ⟨r, hr, hs⟩ := (h1 c hc).2
    have := hall r hr
    rw [Option.isNone_iff_eq_none] at this
    rw [this] at hs; cases hs
  · split_ifs with hp
    · rw [List.map_eq_nil_iff, List.filter_eq_nil_iff]
      intro v hv
      have := h2 hp v hv
      simp only [Bool.or_eq_true, decide_eq_true_eq, not_or, not_not, Bool.not_eq_true]
      exact this
    · rfl
  · rintro ⟨r, hr, hs⟩
    have := (h3 f hf).2 r hr
    rw [Option.isNone_iff_eq_none] at hs
    rw [hs] at this; cases this

theorem addCopies_exists {outs : Dict String} (pairs : List (String × String)) (hp : ∀ p ∈ pairs, Dict.getItem outs p.1 = .ok p.2) {df : DataFrame V} (hc : ∀ p ∈ pairs, p.2 ∈ df.columns) :
    ∃ out, (pairs.map Prod.fst).foldlM (fun (df : DataFrame V) factor => (do
      let outcome ← Dict.getItem outs factor
      if outcome ∈ df.columns then pure (assignColumn df (anchoringName outcome factor) (fun r => r.cell outcome))
      else .error .keyError : Py (DataFrame V))) df = .ok out := by
  induction pairs generalizing df with
  | nil => exact ⟨df, rfl⟩
  | cons p pairs ih =>
    simp only [List.map_cons, List.foldlM_cons]
    obtain ⟨out, hout⟩ := ih (fun q hq => hp q (List.mem_cons_of_mem _ hq)) (df := assignColumn df (anchoringName p.2 p.1) (fun r => r.cell p.2)) (by
      intro q hq
      have := hc q (List.mem_cons_of_mem _ hq)
      unfold assignColumn
      simp only []
      split_ifs
      · exact this
      · exact List.mem_append_left _ this)
    refine ⟨out, py_bind_ok.mpr ⟨_, py_bind_ok.mpr ⟨p.2, hp p List.mem_cons_self, ?_⟩, hout⟩⟩
    rw [if_pos (hc p List.mem_cons_self)]
    rfl

theorem addCopies_columns {outs : Dict String} (pairs : List (String × String)) (hp : ∀ p ∈ pairs, Dict.getItem outs p.1 = .ok p.2) {df out : DataFrame V}
    (h : (pairs.map Prod.fst).foldlM (fun (df : DataFrame V) factor => (do
      let outcome ← Dict.getItem outs factor
      if outcome ∈ df.columns then pure (assignColumn df (anchoringName outcome factor) (fun r => r.cell outcome))
      else .error .keyError : Py (DataFrame V))) df = .ok out) (hclash : ∀ p ∈ pairs, ∀ q ∈ pairs, p.2 ≠ anchoringName q.2 q.1) : ∀ p ∈ pairs, p.2 ∈ df.columns := by
  induction pairs generalizing df with
  | nil => simp
  | cons p pairs ih =>
    simp only [List.map_cons, List.foldlM_cons] at h
    obtain ⟨df1, h1, h2⟩ := py_bind_ok.mp h
    obtain ⟨o, ho, h1⟩ := py_bind_ok.mp h1
    rw [hp p List.mem_cons_self] at ho
    obtain rfl := Except.ok.inj ho
    split_ifs at h1 with hc
    obtain rfl := Except.ok.inj h1
    intro q hq
    rcases List.mem_cons.mp hq with rfl | hq
    · exact hc
    · have := ih (fun q hq => hp q (List.mem_cons_of_mem _ hq)) h2 (fun a ha b hb => hclash a (List.mem_cons_of_mem _ ha) b (List.mem_cons_of_mem _ hb)) q hq
      unfold assignColumn at this
      simp only [] at this
      split_ifs at this
      · exact this
      · rcases List.mem_append.mp this with h | h
        · exact h
        · rw [List.mem_singleton] at h
          exact absurd h (hclash q (List.mem_cons_of_mem _ hq) p List.mem_cons_self)

variable {α : Type} [OfScientific α] [Neg α] [Zero α] [One α] [OfNat α 2] [DecidableEq α]

theorem anchoring_facts {m : ModelDict α} {pm : Processed α} (hpm : processModel m = .ok pm) (hd : DictKeys m) :
    pm.anchoring.factors = pm.anchoring.outcomes.map Prod.fst ∧ ∀ p ∈ pm.anchoring.outcomes, Dict.getItem pm.anchoring.outcomes p.1 = .ok p.2 := by
  have hout : pm.anchoring = processAnchoring m := by
    rw [processModel_ok_iff] at hpm; exact hpm.2.2.2.2.1
  constructor
  · rw [hout]; unfold processAnchoring
    cases m.anchoring <;> rfl
  · intro p hp
    refine Dict.getItem_of_mem ?_ hp
    rw [hout]; unfold processAnchoring
    cases ha : m.anchoring with
    | none => simp
    | some a =>
      cases ho : a.outcomes with
      | none => simp [ho]
      | some os => simpa [ho] using hd.outcomes a os ha ho

theorem update_period_lt {m : ModelDict α} {pm : Processed α} (hpm : processModel m = .ok pm) : ∀ row ∈ pm.updateInfo, row.period < pm.dimensions.nPeriods := by
  have hN := isNPeriods_of_ok hpm
  intro row hrow
  have := (isUpdate_iff hpm row.period row.var).mpr ⟨row, hrow, rfl, rfl⟩
  rw [← isPeriod_iff hpm]
  rcases this with ⟨f, spec, hf, ms, hms, _⟩ | ⟨hp, _⟩
  · exact ⟨_, hN, lt_of_lt_of_le (List.getElem?_eq_some_iff.mp hms).1 (hN.2 f spec hf)⟩
  · exact hp

theorem copies_grid [One V] {m : ModelDict α} {pm : Processed α} (hpm : processModel m = .ok pm) (hd : DictKeys m) {df : LongData V} {pre df2 : DataFrame V}
    (hpre : preProcessData df pm.labels.periods = .ok pre) (hcopy : addCopiesOfAnchoringOutcome (assignColumn pre "constant" (fun _ => some 1)) pm.anchoring = .ok df2) :
    (∀ c, c ∈ df2.columns ↔ c ∈ df.columns ∨ c = "constant" ∨ ∃ p ∈ pm.anchoring.outcomes, c = anchoringName p.2 p.1) ∧
    ∀ t < pm.dimensions.nPeriods, periodData df2 t = (idCodes df).map (fun i => ⟨i, t, fullCell df pm.anchoring.outcomes i t⟩) := by
  obtain ⟨hfac, hget⟩ := anchoring_facts hpm hd
  obtain ⟨hcols, hrows⟩ := preProcess_grid hpre
  unfold addCopiesOfAnchoringOutcome at hcopy
  rw [hfac] at hcopy
  obtain ⟨hrows2, hcols2⟩ := addCopies_ok _ hget hcopy
  constructor
  · intro c
    rw [hcols2]
    unfold assignColumn
    simp only [hcols]
    split_ifs with h
    · constructor
      · tauto
      · rintro (h' | rfl | h')
        · exact Or.inl h'
        · exact Or.inl h
        · exact Or.inr h'
    · simp only [List.mem_append, List.mem_singleton]
      tauto
  · have hrows2 : df2.rows = (idCodes df).flatMap (fun i => (List.range pm.dimensions.nPeriods).map (fun t => ⟨i, t, fullCell df pm.anchoring.outcomes i t⟩)) := by
      rw [hrows2]
      unfold assignColumn
      simp only [hrows, (labels_of_ok hpm).2.2.2.1, List.map_flatMap, List.map_map]
      rfl
    intro t ht
    have := periodData_grid (codes := idCodes df) ht (fun i t => (⟨i, t, fullCell df pm.anchoring.outcomes i t⟩ : DataRow V)) (fun _ _ => rfl) df2.columns
    rw [← hrows2] at this
    exact this

/-- After the checks nothing can fail. -/
theorem processData_exists [DecidableEq V] [One V] {m : ModelDict α} {pm : Processed α} (hpm : processModel m = .ok pm) {df : LongData V} {pre df2 : DataFrame V}
    (hpre : preProcessData df pm.labels.periods = .ok pre) (hcopy : addCopiesOfAnchoringOutcome (assignColumn pre "constant" (fun _ => some 1)) pm.anchoring = .ok df2)
    {purpose : DataPurpose} (hcheck : checkData df2 pm.updateInfo pm.labels purpose = .ok ()) (hmeas : ∀ row ∈ pm.updateInfo, ∀ v ∈ getPeriodMeasurements pm.updateInfo row.period, v ∈ df2.columns) :
    ∃ out, processData df pm.labels pm.updateInfo pm.anchoring purpose = .ok out := by
  have hper := (labels_of_ok hpm).2.2.2.1
  have hN1 : 0 < pm.dimensions.nPeriods := by
    have := (processModel_ok_iff.mp hpm).2.1
    exact ((checkModel_ok_iff (isNPeriods_of_ok hpm)).mp this).periods _ (isNPeriods_of_ok hpm)
  have hck := checkData_ok_iff.mp hcheck
  have hcon : ∀ c ∈ pm.labels.controls, c ∈ df2.columns := fun c hc => ((hck 0 (by rw [hper]; exact List.mem_range.mpr hN1)).1 c hc).1
  have hobs : ∀ c ∈ pm.labels.observedFactors, c ∈ df2.columns := fun c hc => ((hck 0 (by rw [hper]; exact List.mem_range.mpr hN1)).2.2 c hc).1
  have hh : ∃ df3, handleControlsWithMissings df2 pm.labels.controls pm.updateInfo = .ok df3 ∧ df3.columns = df2.columns := by
    unfold handleControlsWithMissings
    rw [if_pos]
    · exact ⟨_, rfl, rfl⟩
    · simp only [List.all_eq_true, decide_eq_true_eq, List.mem_append]
      rintro row hrow c (hc | hc)
      · exact hcon c hc
      · exact hmeas row hrow c hc
  obtain ⟨df3, h3, hc3⟩ := hh
  have hm : ∃ x, measurementsFor purpose df3 pm.updateInfo = .ok x := by
    unfold measurementsFor generateMeasurementsArray
    by_cases hpur : purpose = .estimation
    swap
    · exact ⟨_, if_neg hpur⟩
    rw [if_pos hpur]
    have : pm.updateInfo.mapM (fun row => columnOf df3 row.period row.var) = .ok (pm.updateInfo.map (fun row => (periodData df3 row.period).map (fun r => r.cell row.var))) := by
      rw [mapM_ok_iff, List.forall₂_map_right_iff, List.forall₂_same]
      intro row hrow
      unfold columnOf
      rw [if_pos]
      rw [hc3]
      refine hmeas row hrow _ ?_
      unfold getPeriodMeasurements
      exact List.mem_map.mpr ⟨row, List.mem_filter.mpr ⟨hrow, by simp⟩, rfl⟩
    rw [this]
    exact ⟨_, rfl⟩
  have ha : ∀ vars, (∀ c ∈ vars, c ∈ df2.columns) → ∃ x, generateArray df3 pm.labels.periods vars = .ok x := by
    intro vars hv
    unfold generateArray
    refine ⟨pm.labels.periods.map (fun t => (periodData df3 t).map (fun r => vars.map r.cell)), ?_⟩
    rw [mapM_ok_iff, List.forall₂_map_right_iff, List.forall₂_same]
    intro t _
    rw [if_pos]
    simp only [List.all_eq_true, decide_eq_true_eq, hc3]
    exact hv
  obtain ⟨x, hx⟩ := hm
  obtain ⟨c, hc⟩ := ha _ hcon
  obtain ⟨o, ho⟩ := ha _ hobs
  unfold processData
  exact ⟨_, py_bind_ok.mpr ⟨_, hpre, py_bind_ok.mpr ⟨_, hcopy, py_bind_ok.mpr ⟨_, hcheck, py_bind_ok.mpr ⟨_, h3, py_bind_ok.mpr ⟨_, hx, py_bind_ok.mpr ⟨_, hc, py_bind_ok.mpr ⟨_, ho, rfl⟩⟩⟩⟩⟩⟩⟩⟩

theorem processData_ok [DecidableEq V] [One V] {m : ModelDict α} {pm : Processed α} (hpm : processModel m = .ok pm) (hd : DictKeys m) {df : LongData V} {purpose : DataPurpose}
    {out : ProcessedData V} (h : processData df pm.labels pm.updateInfo pm.anchoring purpose = .ok out) :
    ∃ n, IsNPeriods m n ∧
    (out.measurements = if purpose = .estimation then
      some (pm.updateInfo.map (fun row => (idCodes df).map (fun i => finalCell df pm.anchoring.outcomes pm.labels.controls pm.updateInfo i row.period row.var))) else none) ∧
    out.controls = (List.range n).map (fun t => (idCodes df).map (fun i => pm.labels.controls.map (finalCell df pm.anchoring.outcomes pm.labels.controls pm.updateInfo i t))) ∧
    out.observedFactors = (List.range n).map (fun t => (idCodes df).map (fun i => pm.labels.observedFactors.map (finalCell df pm.anchoring.outcomes pm.labels.controls pm.updateInfo i t))) ∧
    (∃ pre, preProcessData df pm.labels.periods = .ok pre) ∧
    (∀ t < n, ∀ f ∈ pm.labels.observedFactors, ∀ i ∈ idCodes df, (fullCell df pm.anchoring.outcomes i t f).isSome) := by
  obtain ⟨hlat, hobs, hcon, hper, hall, hti, _⟩ := labels_of_ok hpm
  have hN := isNPeriods_of_ok hpm
  have hup := update_period_lt hpm
  refine ⟨pm.dimensions.nPeriods, hN, ?_⟩
  obtain ⟨hfac, hget⟩ := anchoring_facts hpm hd
  unfold processData at h
  obtain ⟨pre, hpre, h⟩ := py_bind_ok.mp h
  obtain ⟨df2, hcopy, h⟩ := py_bind_ok.mp h
  obtain ⟨_, hcheck, h⟩ := py_bind_ok.mp h
  obtain ⟨df3, hhandle, h⟩ := py_bind_ok.mp h
  obtain ⟨meas, hmeas, h⟩ := py_bind_ok.mp h
  obtain ⟨con, hc, h⟩ := py_bind_ok.mp h
  obtain ⟨obs, ho, h⟩ := py_bind_ok.mp h
  obtain rfl := Except.ok.inj h
  obtain ⟨hcols, hrows⟩ := preProcess_grid hpre
  unfold addCopiesOfAnchoringOutcome at hcopy
  rw [hfac] at hcopy
  obtain ⟨hrows2, hcols2⟩ := addCopies_ok _ hget hcopy
  have hrows2 : df2.rows = (idCodes df).flatMap (fun i => (List.range pm.dimensions.nPeriods).map (fun t => ⟨i, t, fullCell df pm.anchoring.outcomes i t⟩)) := by
    rw [hrows2]
    unfold assignColumn
    simp only [hrows, hper, List.map_flatMap, List.map_map]
    rfl
  have hpd2 : ∀ t < pm.dimensions.nPeriods, periodData df2 t = (idCodes df).map (fun i => ⟨i, t, fullCell df pm.anchoring.outcomes i t⟩) := by
    intro t ht
    have := periodData_grid (codes := idCodes df) ht (fun i t => (⟨i, t, fullCell df pm.anchoring.outcomes i t⟩ : DataRow V)) (fun _ _ => rfl) df2.columns
    rw [← hrows2] at this
    exact this
  have hpd3 : ∀ t < pm.dimensions.nPeriods, periodData df3 t = (idCodes df).map (fun i => ⟨i, t, finalCell df pm.anchoring.outcomes pm.labels.controls pm.updateInfo i t⟩) := by
    intro t ht
    unfold handleControlsWithMissings at hhandle
    split_ifs at hhandle
    obtain rfl := Except.ok.inj hhandle
    have := periodData_grid (codes := idCodes df) ht (fun i t => (⟨i, t, finalCell df pm.anchoring.outcomes pm.labels.controls pm.updateInfo i t⟩ : DataRow V)) (fun _ _ => rfl) df2.columns
    rw [← this]
    congr 2
    rw [hrows2, List.map_flatMap]
    refine List.flatMap_congr (fun i _ => ?_)
    rw [List.map_map]
    refine List.map_congr_left (fun s _ => ?_)
    simp only [Function.comp]
    unfold finalCell
    by_cases hpb : isProblem pm.labels.controls (getPeriodMeasurements pm.updateInfo s) (⟨i, s, fullCell df pm.anchoring.outcomes i s⟩ : DataRow V) = true
    · rw [if_pos hpb, if_pos]
      rw [Bool.and_eq_true]
      refine ⟨?_, hpb⟩
      unfold isProblem at hpb
      rw [Bool.and_eq_true, List.any_eq_true, List.any_eq_true] at hpb
      obtain ⟨_, v, hv, _⟩ := hpb
      unfold getPeriodMeasurements at hv
      obtain ⟨row, hrow, _⟩ := List.mem_map.mp hv
      rw [List.mem_filter] at hrow
      rw [List.any_eq_true]
      exact ⟨row, hrow.1, by simpa using hrow.2⟩
    · rw [if_neg hpb, if_neg]
      rw [Bool.and_eq_true]
      exact fun h => hpb h.2
  refine ⟨?_, ?_, ?_, ⟨pre, hpre⟩, ?_⟩
  · simp only []
    unfold measurementsFor at hmeas
    split_ifs at hmeas ⊢ with hp
    · cases hx : generateMeasurementsArray df3 pm.updateInfo with
      | error e => rw [hx] at hmeas; cases hmeas
      | ok x =>
      rw [hx] at hmeas
      obtain rfl := Except.ok.inj hmeas
      congr 1
      refine mapM_eq_map hx (fun row hrow y hy => ?_)
      unfold columnOf at hy
      split_ifs at hy
      rw [← Except.ok.inj hy, hpd3 _ (hup row hrow), List.map_map]
      rfl
    · exact (Except.ok.inj hmeas).symm
  · unfold generateArray at hc
    rw [hper] at hc
    refine mapM_eq_map hc (fun t ht y hy => ?_)
    split_ifs at hy
    rw [← Except.ok.inj hy, hpd3 _ (List.mem_range.mp ht), List.map_map]
    rfl
  · unfold generateArray at ho
    rw [hper] at ho
    refine mapM_eq_map ho (fun t ht y hy => ?_)
    split_ifs at hy
    rw [← Except.ok.inj hy, hpd3 _ (List.mem_range.mp ht), List.map_map]
    rfl
  · intro t ht f hf i hi
    have := (checkData_ok hcheck (t := t) (by rw [hper]; exact List.mem_range.mpr ht)).2.2 f hf
    rw [hpd2 t ht] at this
    exact this.2 _ (List.mem_map.mpr ⟨i, hi, rfl⟩)

end Skill
