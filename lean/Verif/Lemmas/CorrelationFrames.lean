import Verif.Lemmas.Correlation
import Verif.Lemmas.ProcessData
import Verif.Lemmas.ParamsIndex
/- The DataFrames of measurements and scores. -/
namespace Skill
open Spec
variable {α : Type} [OfScientific α] [Neg α] [Zero α] [One α] [OfNat α 2] [DecidableEq α]

/-- The data of the selected periods. -/
def gridData (df : LongData ℝ) (ids : List Int) (periods : List Nat) : DataFrame ℝ :=
  { columns := df.columns, rows := (ids.map (levelCode df.idLevel)).flatMap (fun i => periods.map (fun t => ⟨i, t, gridCell df i t⟩)) }

/-- One column of the data of a period. -/
def gridColumn (df : LongData ℝ) (ids : List Int) (t : Nat) (c : String) : List FVal := ids.map (fun x => FVal.ofCell (gridCell df (levelCode df.idLevel x) t c))

theorem gridRows_filter (df : LongData ℝ) (ids : List Int) {periods : List Nat} (hn : periods.Nodup) {t : Nat} (ht : t ∈ periods) :
    (gridData df ids periods).rows.filter (fun r => decide (r.period = t)) = ids.map (fun x => ⟨levelCode df.idLevel x, t, gridCell df (levelCode df.idLevel x) t⟩) := by
  unfold gridData
  simp only
  induction ids with
  | nil => rfl
  | cons x xs ih =>
    rw [List.map_cons, List.flatMap_cons, List.filter_append, ih, List.map_cons]
    have : List.filter (fun r : DataRow ℝ => decide (r.period = t)) (periods.map (fun s => ⟨levelCode df.idLevel x, s, gridCell df (levelCode df.idLevel x) s⟩)) =
        [⟨levelCode df.idLevel x, t, gridCell df (levelCode df.idLevel x) t⟩] := by
      rw [List.filter_map]
      have h2 : periods.filter ((fun r : DataRow ℝ => decide (r.period = t)) ∘ fun s => ⟨levelCode df.idLevel x, s, gridCell df (levelCode df.idLevel x) s⟩) = [t] := by
        have : ((fun r : DataRow ℝ => decide (r.period = t)) ∘ fun s => (⟨levelCode df.idLevel x, s, gridCell df (levelCode df.idLevel x) s⟩ : DataRow ℝ)) = fun s => decide (s = t) := rfl
        rw [this]
        have h3 := hn.filter (fun s => decide (s = t))
        have h4 : ∀ s, s ∈ periods.filter (fun s => decide (s = t)) ↔ s ∈ [t] := by
          intro s
          rw [List.mem_filter, List.mem_singleton, decide_eq_true_iff]
          exact ⟨fun h => h.2, fun h => ⟨h ▸ ht, h⟩⟩
        exact List.perm_singleton.mp ((List.perm_ext_iff_of_nodup h3 (List.nodup_singleton t)).mpr h4)
      rw [h2]
      rfl
    rw [this]
    rfl

theorem periodColumn_grid (df : LongData ℝ) (ids : List Int) {periods : List Nat} (hn : periods.Nodup) {t : Nat} (ht : t ∈ periods) {c : String} (hc : c ∈ df.columns) :
    periodColumn (gridData df ids periods) t c = .ok (gridColumn df ids t c) := by
  unfold periodColumn
  rw [if_pos (show c ∈ (gridData df ids periods).columns from hc), gridRows_filter df ids hn ht, List.map_map]
  rfl

theorem periodLength_grid (df : LongData ℝ) (ids : List Int) {periods : List Nat} (hn : periods.Nodup) {t : Nat} (ht : t ∈ periods) : periodLength (gridData df ids periods) t = ids.length := by
  unfold periodLength
  rw [gridRows_filter df ids hn ht, List.length_map]

theorem namedColumn_grid (df : LongData ℝ) (ids : List Int) {periods : List Nat} (hn : periods.Nodup) {t : Nat} (ht : t ∈ periods) {c : String} (hc : c ∈ df.columns) :
    namedColumn (gridData df ids periods) t c = .ok (c, gridColumn df ids t c) := by
  unfold namedColumn
  rw [periodColumn_grid df ids hn ht hc]
  rfl

/-- The cell of an individual. -/
theorem gridCell_cellIs {df : LongData ℝ} (hi : IndexOk df) (hu : NoUnusedPeriods df) (hk : UniqueKeys df) {ids pers : List Int} (hids : IdsOf df ids) (hp : PeriodsOf df pers) {i t : ℕ} (h : i < ids.length) {c : String}
    {w : Option ℝ} : CellIs df ids pers i t c w ↔ w = gridCell df (levelCode df.idLevel ids[i]) t c := by
  constructor
  · rintro ⟨r, hr, rfl⟩
    exact (gridCell_eq hi hu hk hids hp (List.getElem?_eq_getElem h) hr c).symm
  · rintro rfl
    by_cases hr : ∃ r ∈ df.rows, ids[i]? = some r.id ∧ pers[t]? = some r.period
    · obtain ⟨r, hr⟩ := hr
      exact ⟨some r, hr, gridCell_eq hi hu hk hids hp (List.getElem?_eq_getElem h) (r := some r) hr c⟩
    · push Not at hr
      have hrow : RowOf df ids pers i t none := ⟨h, fun r hr' h' => hr r hr' h'.1 h'.2⟩
      exact ⟨none, hrow, gridCell_eq hi hu hk hids hp (List.getElem?_eq_getElem h) hrow c⟩

theorem gridColumn_column {df : LongData ℝ} (hi : IndexOk df) (hu : NoUnusedPeriods df) (hk : UniqueKeys df) {ids pers : List Int} (hids : IdsOf df ids) (hp : PeriodsOf df pers) {t : ℕ} {c : String}
    {x : Fin ids.length → Option ℝ} (hx : ∀ i : Fin ids.length, CellIs df ids pers i t c (x i)) : Column (gridColumn df ids t c) x := by
  unfold Column gridColumn
  refine List.ext_getElem (by simp) (fun i h1 h2 => ?_)
  have hi' : i < ids.length := by simpa using h1
  simp only [List.getElem_map, FVal.toOption_ofCell, List.getElem_ofFn]
  exact ((gridCell_cellIs hi hu hk hids hp hi').mp (hx ⟨i, hi'⟩)).symm

/-! ### several periods -/

theorem frameOfPeriods_ok {κ : Type} {single : ℕ → Py Frame} {periods : List ℕ} (hne : periods ≠ []) (items : ℕ → List κ) (name : κ → String) (col : κ → List FVal)
    (h : ∀ t ∈ periods, single t = .ok ((items t).map (fun k => (name k, col k)))) :
    frameOfPeriods single periods = .ok (periods.flatMap (fun t => (items t).map (fun k => (corrLabel (1 < periods.length) (name k) t, col k)))) := by
  match periods, hne, h with
  | [p], _, h =>
    simp only [frameOfPeriods]
    rw [h p (by simp)]
    simp [corrLabel]
  | p :: q :: ps, _, h =>
    have hlab : ∀ (s : String) t, corrLabel (1 < (p :: q :: ps).length) s t = s ++ ", " ++ toString t := fun s t => if_pos (by simp)
    simp only [frameOfPeriods]
    rw [mapM_pure_ok _ (fun t => addSuffix t ((items t).map (fun k => (name k, col k)))) (p :: q :: ps) (fun t ht => by rw [h t ht]; rfl)]
    simp only [hlab]
    show Except.ok _ = Except.ok _
    congr 1
    rw [List.flatMap_def]
    congr 1
    refine List.map_congr_left (fun t _ => ?_)
    simp [addSuffix]


theorem corrOf_shape (frame : Frame) : TableShape (corrOf frame) := by
  refine ⟨by simp [corrOf], ?_⟩
  intro row hrow
  obtain ⟨c, _, rfl⟩ := List.mem_map.mp hrow
  simp [corrOf]

theorem corrOf_entry {frame : Frame} {a b : ℕ} {c d : String × List FVal} (ha : frame[a]? = some c) (hb : frame[b]? = some d) : entry2 (corrOf frame).cells a b = some (pearson c.2 d.2) := by
  unfold entry2 corrOf
  simp only [List.getElem?_map, ha, hb, Option.map_some, Option.bind_some]

theorem corrOf_entry_iff {frame : Frame} {a b : ℕ} {r : Option ℝ} : entry2 (corrOf frame).cells a b = some r ↔ ∃ c d, frame[a]? = some c ∧ frame[b]? = some d ∧ r = pearson c.2 d.2 := by
  unfold entry2 corrOf
  simp only [List.getElem?_map]
  cases ha : frame[a]? with
  | none => simp
  | some c =>
    cases hb : frame[b]? with
    | none => simp [List.getElem?_map, hb]
    | some d => simp [List.getElem?_map, hb, eq_comm]

theorem pearson_comm (xs ys : List FVal) (n : ℕ) (hx : ∃ x : Fin n → Option ℝ, Column xs x) (hy : ∃ x : Fin n → Option ℝ, Column ys x) : pearson xs ys = pearson ys xs := by
  obtain ⟨x, hx⟩ := hx
  obtain ⟨y, hy⟩ := hy
  rw [pearson_eq hx hy, pearson_eq hy hx]
  unfold observedCorrelation
  rw [correlation_symm]
  simp only [and_comm]

/-- Tables of correlations are symmetric with ones on the diagonal. -/
theorem corrOf_props {frame : Frame} {n : ℕ} (h : ∀ c ∈ frame, ∃ x : Fin n → Option ℝ, Column c.2 x) :
    (∀ a b : ℕ, entry2 (corrOf frame).cells a b = entry2 (corrOf frame).cells b a) ∧ (∀ (a : ℕ) r, entry2 (corrOf frame).cells a a = some (some r) → r = 1) ∧
      ∀ (a b : ℕ) r, entry2 (corrOf frame).cells a b = some (some r) → |r| ≤ 1 := by
  refine ⟨fun a b => ?_, fun a r hr => ?_, fun a b r hr => ?_⟩
  · refine Option.ext (fun r => ?_)
    rw [corrOf_entry_iff, corrOf_entry_iff]
    constructor
    · rintro ⟨c, d, hc, hd, rfl⟩
      exact ⟨d, c, hd, hc, pearson_comm _ _ n (h c (List.mem_of_getElem? hc)) (h d (List.mem_of_getElem? hd))⟩
    · rintro ⟨c, d, hc, hd, rfl⟩
      exact ⟨d, c, hd, hc, pearson_comm _ _ n (h c (List.mem_of_getElem? hc)) (h d (List.mem_of_getElem? hd))⟩
  · obtain ⟨c, d, hc, hd, hp⟩ := corrOf_entry_iff.mp hr
    rw [hc] at hd
    cases hd
    obtain ⟨x, hx⟩ := h c (List.mem_of_getElem? hc)
    rw [pearson_eq hx hx] at hp
    exact correlation_self _ _ hp.symm
  · obtain ⟨c, d, hc, hd, hp⟩ := corrOf_entry_iff.mp hr
    obtain ⟨x, hx⟩ := h c (List.mem_of_getElem? hc)
    obtain ⟨y, hy⟩ := h d (List.mem_of_getElem? hd)
    rw [pearson_eq hx hy] at hp
    exact correlation_abs_le _ _ _ hp.symm

theorem isCorrelationTable {κ : Type} {n : ℕ} {items : List κ} {label : κ → String} {col : κ → List FVal} {V : ℕ → κ → Option ℝ → Prop} (hv : ∀ k ∈ items, ∀ i < n, ∃ x, V i k x)
    (hc : ∀ k ∈ items, ∀ x : Fin n → Option ℝ, (∀ i : Fin n, V i k (x i)) → Column (col k) x) : IsCorrelationTable n items label V (corrOf (items.map (fun k => (label k, col k)))) := by
  have hex : ∀ k ∈ items, ∃ x : Fin n → Option ℝ, ∀ i : Fin n, V i k (x i) := fun k hk => ⟨fun i => (hv k hk i i.2).choose, fun i => (hv k hk i i.2).choose_spec⟩
  obtain ⟨h1, h2, h3⟩ := corrOf_props (frame := items.map (fun k => (label k, col k))) (n := n) (fun c hc' => by
    obtain ⟨k, hk, rfl⟩ := List.mem_map.mp hc'
    obtain ⟨x, hx⟩ := hex k hk
    exact ⟨x, hc k hk x hx⟩)
  refine ⟨by simp [corrOf], by simp [corrOf], corrOf_shape _, hv, ?_, h1, h2, h3⟩
  intro a b k l ha hb x y hx hy
  have ha' : (items.map (fun k => (label k, col k)))[a]? = some (label k, col k) := by rw [List.getElem?_map, ha]; rfl
  have hb' : (items.map (fun k => (label k, col k)))[b]? = some (label l, col l) := by rw [List.getElem?_map, hb]; rfl
  rw [corrOf_entry ha' hb']
  exact congrArg some (pearson_eq (hc k (List.mem_of_getElem? ha) x hx) (hc l (List.mem_of_getElem? hb) y hy))

/-! ### arguments -/

theorem processFactors_ok {m : ModelDict α} {pm : Processed α} (hpm : processModel m = .ok pm) {arg : FactorsArg} {latent observed : List String} (h : RequestedFactors m arg latent observed) :
    processFactors pm.labels arg = .ok (latent, observed) := by
  obtain ⟨h1, h2, _⟩ := labels_of_ok hpm
  have hl : ∀ f, f ∈ pm.labels.latentFactors ↔ IsLatent m f := by
    intro f
    rw [h1, List.mem_map]
    constructor
    · rintro ⟨⟨f, s⟩, h, rfl⟩; exact ⟨s, h⟩
    · rintro ⟨s, h⟩; exact ⟨(f, s), h, rfl⟩
  unfold RequestedFactors at h
  cases arg with
  | all =>
    simp only at h
    rw [processFactors, h.1, h.2, h1, h2]
  | name f =>
    simp only at h
    obtain ⟨h0, ⟨a, b, c⟩ | ⟨a, b, c, d⟩⟩ := h
    · rw [processFactors, if_neg h0, if_pos ((hl f).mpr a), b, c]
    · rw [processFactors, if_neg h0, if_neg (fun hf => a ((hl f).mp hf)), if_pos (h2 ▸ b), c, d]
  | names fs =>
    simp only at h
    obtain ⟨h0, rfl, rfl⟩ := h
    rw [processFactors, if_neg h0]
    congr 2
    · refine List.filter_congr (fun f _ => ?_)
      by_cases hf : IsLatent m f <;> simp [hl, hf]
    · refine List.filter_congr (fun f _ => ?_)
      rw [← Bool.decide_and, decide_eq_decide, hl, h2]

theorem processPeriods_ok {m : ModelDict α} {pm : Processed α} (hpm : processModel m = .ok pm) {arg : PeriodsArg} {periods : List ℕ} (h : RequestedPeriods m arg periods) :
    processPeriods pm.dimensions arg = periods := by
  cases arg with
  | all =>
    obtain ⟨n, hn, rfl⟩ := h
    rw [processPeriods, IsNPeriods.unique hn (isNPeriods_of_ok hpm)]
  | single p => exact h.symm
  | list ps => exact h.symm

/-! ### the measurements of a factor -/

/-- The measurements of a factor in a period. -/
def measurementNames (u : List URow) (t : ℕ) (f : String) : List String :=
  ((u.filter (fun r => decide (r.period = t))).filter (fun r => decide (f ∈ r.trueCols) && decide (r.purpose = .measurement))).map URow.var

theorem periodInfo_ok {m : ModelDict α} {pm : Processed α} (hpm : processModel m = .ok pm) {t : ℕ} (h : ∃ v, IsUpdate m t v) :
    periodInfo pm.updateInfo t = .ok (pm.updateInfo.filter (fun r => decide (r.period = t))) := by
  obtain ⟨v, hv⟩ := h
  obtain ⟨r, hr, h1, h2⟩ := (isUpdate_iff hpm t v).mp hv
  have : r ∈ pm.updateInfo.filter (fun r => decide (r.period = t)) := List.mem_filter.mpr ⟨hr, by simpa using h1⟩
  unfold periodInfo
  split
  · rename_i heq
    rw [heq] at this
    cases this
  · rfl

theorem mem_measurementNames {m : ModelDict α} {pm : Processed α} (hpm : processModel m = .ok pm) (t : ℕ) (f v : String) : v ∈ measurementNames pm.updateInfo t f ↔ MeasurementOf m t v f := by
  obtain ⟨_, h2, _, h4, h5⟩ := C01_update_info_exact hpm
  unfold measurementNames MeasurementOf
  simp only [List.mem_map, List.mem_filter, Bool.and_eq_true, decide_eq_true_iff]
  constructor
  · rintro ⟨r, ⟨⟨hr, rfl⟩, hf, hp⟩, rfl⟩
    have ha : ¬∃ g, Anchors m r.var g := fun h => by
      rw [(h5 r hr).mpr h] at hp
      cases hp
    exact ⟨((h4 r hr f).mp hf).resolve_right (fun h => ha ⟨f, h⟩), ha⟩
  · rintro ⟨hm, ha⟩
    obtain ⟨r, hr, rfl, rfl⟩ := (h2 t v).mpr (Or.inl ⟨f, hm⟩)
    refine ⟨r, ⟨⟨hr, rfl⟩, (h4 r hr f).mpr (Or.inl hm), ?_⟩, rfl⟩
    cases hp : r.purpose with
    | measurement => rfl
    | anchoring => exact absurd ((h5 r hr).mp hp) ha

theorem measurementNames_nodup {m : ModelDict α} {pm : Processed α} (hpm : processModel m = .ok pm) (t : ℕ) (f : String) : (measurementNames pm.updateInfo t f).Nodup := by
  obtain ⟨h1, _⟩ := C01_update_info_exact hpm
  unfold measurementNames
  rw [List.Nodup, List.pairwise_map] at h1 ⊢
  have h := (h1.filter (fun r => decide (r.period = t))).filter (fun r => decide (f ∈ r.trueCols) && decide (r.purpose = .measurement))
  refine h.imp_of_mem (fun {a b} ha hb hab he => hab ?_)
  simp only [List.mem_filter, decide_eq_true_iff] at ha hb
  rw [he, ha.1.2, hb.1.2]

/-- The query accepts exactly the identifiers that are not reserved. -/
theorem queryName_iff (f : String) : queryName f = true ↔ IsQueryName f := by
  unfold queryName
  have hn : f.toList = [] ↔ f = "" := by simp
  rcases hf : f.toList with _ | ⟨c, cs⟩
  · simp only [Bool.false_eq_true, false_iff]
    exact fun h => h.nonempty (hn.mp hf)
  · have hne : f ≠ "" := fun h => by rw [hn.mpr h] at hf; cases hf
    have hdisj : ∀ d : Char, d.isAlpha = true → d.isDigit = false := by
      intro d hd
      simp only [Char.isAlpha, Char.isUpper, Char.isLower, Char.isDigit, Bool.or_eq_true, Bool.and_eq_true, decide_eq_true_eq, Bool.and_eq_false_iff, decide_eq_false_iff_not] at *
      rcases hd with ⟨h1, h2⟩ | ⟨h1, h2⟩ <;> right <;> intro h3
      · exact absurd (UInt32.le_trans h1 h3) (by decide)
      · exact absurd (UInt32.le_trans h1 h3) (by decide)
    simp only [Bool.and_eq_true, Bool.or_eq_true, beq_iff_eq, List.all_eq_true, Char.isAlphanum, Bool.not_eq_true', List.contains_eq_mem, decide_eq_false_iff_not]
    constructor
    · rintro ⟨⟨h1, h2⟩, h3⟩
      refine ⟨hne, ?_, ?_, h3⟩
      · intro d hd
        rw [hf, List.mem_cons] at hd
        rcases hd with rfl | hd
        · exact h1.elim Or.inl (fun h => Or.inr (Or.inr h))
        · exact (h2 d hd).elim (fun h => h.elim Or.inl (fun h => Or.inr (Or.inl h))) (fun h => Or.inr (Or.inr h))
      · intro d hd
        rw [hf, List.head?_cons, Option.some.injEq] at hd
        subst hd
        rcases h1 with h1 | rfl
        · exact hdisj _ h1
        · decide
    · intro h
      refine ⟨⟨?_, fun d hd => ?_⟩, h.free⟩
      · have h1 := h.characters c (by rw [hf]; simp)
        have h2 := h.start c (by rw [hf]; rfl)
        rw [h2] at h1
        rcases h1 with h1 | h1 | h1
        · exact Or.inl h1
        · cases h1
        · exact Or.inr h1
      · rcases h.characters d (by rw [hf]; exact List.mem_cons_of_mem _ hd) with h1 | h1 | h1
        · exact Or.inl (Or.inl h1)
        · exact Or.inl (Or.inr h1)
        · exact Or.inr h1

theorem factorMeasurements_ok (u : List URow) (t : ℕ) {f : String} (hf : IsQueryName f) : factorMeasurements (u.filter (fun r => decide (r.period = t))) f = .ok (measurementNames u t f) := by
  unfold factorMeasurements
  rw [if_pos ((queryName_iff f).mpr hf)]
  rfl

end Skill
