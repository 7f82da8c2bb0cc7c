import Verif.Lemmas.OwnData
/- C113: the likelihood contribution of an individual depends only on the data of that individual. -/
namespace Skill
open Spec

theorem entry2_ofFn {nObs : ℕ} {os : List (Fin nObs → ℝ)} (k : ℕ) (i : Fin nObs) : entry2 (os.map List.ofFn) k i = (os[k]?).map (fun o => o i) := by
  unfold entry2
  rw [List.getElem?_map]
  cases os[k]? with
  | none => rfl
  | some o => simp

/-- **C113**: two datasets may have different individuals, and different numbers of individuals. If the i-th individual of the first dataset has the same data as the i'-th individual of the second one, then
the likelihood contributions of the two are the same, and so is each entry of the debug output. -/
theorem C113_own_data {m : ModelDict ℝ} (hd : DictKeys m) (hclash : NoNameClash m) {df df' : LongData ℝ} (hi : IndexOk df) (hi' : IndexOk df') (hu : NoUnusedPeriods df) (hu' : NoUnusedPeriods df')
    {ids pers ids' pers' : List Int} (hids : IdsOf df ids) (hpers : PeriodsOf df pers) (hids' : IdsOf df' ids') (hpers' : PeriodsOf df' pers') {inputs inputs' : MaximizationInputs}
    (hin : getMaximizationInputs m df = .ok inputs) (hin' : getMaximizationInputs m df' = .ok inputs') {qr : QR} {custom : String → CustomFn} {nan : ℝ} {params : List (Loc × ℝ)} {out out' : LoglikeOutput}
    (h : inputs.loglike qr custom nan m params = .ok out) (h' : inputs'.loglike qr custom nan m params = .ok out') {i i' : ℕ} (hs : SameHistory m df ids pers i df' ids' pers' i') :
    (∃ x, out.contributions[i]? = some x ∧ out'.contributions[i']? = some x) ∧ ∀ k, entry2 out.allContributions k i = entry2 out'.allContributions k i' := by
  obtain ⟨nMix, n, r, r', _, h1, h2, _, h3, h4, _, _, h5⟩ := evaluate_own hd hclash hi hi' hu hu' hids hpers hids' hpers' hin hin' h h'
  obtain rfl := Except.ok.inj h1
  obtain rfl := Except.ok.inj h2
  obtain ⟨hs1, hs2, _⟩ := id hs
  obtain ⟨e1, e2⟩ := h5 ⟨i, hs1⟩ ⟨i', hs2⟩ hs
  refine ⟨⟨r.contributions ⟨i, hs1⟩, ?_, ?_⟩, fun k => ?_⟩
  · simp [LoglikeResult.output, hs1]
  · simp [LoglikeResult.output, hs2, e1]
  · have a := entry2_ofFn (os := r.allContributions) k ⟨i, hs1⟩
    have b := entry2_ofFn (os := r'.allContributions) k ⟨i', hs2⟩
    dsimp only [LoglikeResult.output] at *
    rw [a, b, h3, h4]
    have e3 := congrArg (fun os => (os[k]?).map (fun o : StepOut 1 nMix n => o.loglikes 0)) e2
    simpa [Function.comp_def, StepOut.select] using e3

/-- The contributions belong to the individuals of the dataset, and their sum is the value of the log likelihood. -/
theorem loglike_sum {m : ModelDict ℝ} (hd : DictKeys m) (hclash : NoNameClash m) {df : LongData ℝ} (hi : IndexOk df) (hu : NoUnusedPeriods df) {ids pers : List Int} (hids : IdsOf df ids) (hpers : PeriodsOf df pers)
    {inputs : MaximizationInputs} (hin : getMaximizationInputs m df = .ok inputs) {qr : QR} {custom : String → CustomFn} {nan : ℝ} {params : List (Loc × ℝ)} {out : LoglikeOutput}
    (h : inputs.loglike qr custom nan m params = .ok out) : out.contributions.length = ids.length ∧ out.value = out.contributions.sum := by
  obtain ⟨nMix, n, r, r', _, h1, _, _, _, _, h5, _, _⟩ := evaluate_own hd hclash hi hi hu hu hids hpers hids hpers hin hin h h
  obtain rfl := Except.ok.inj h1
  refine ⟨by simp [LoglikeResult.output], ?_⟩
  dsimp only [LoglikeResult.output]
  rw [h5, List.sum_ofFn]

theorem accepted_dataOk {m : ModelDict ℝ} (hd : DictKeys m) (hclash : NoNameClash m) {df : LongData ℝ} (hi : IndexOk df) (hu : NoUnusedPeriods df) {ids pers : List Int} (hids : IdsOf df ids) (hpers : PeriodsOf df pers)
    {inputs : MaximizationInputs} (hin : getMaximizationInputs m df = .ok inputs) : DataOk m df ids pers := by
  unfold getMaximizationInputs at hin
  simp only [py_bind_ok] at hin
  obtain ⟨pm, hpm, info, _, data, hdata, _⟩ := hin
  exact (C66_accepts_iff hpm hd hclash hi hu hids hpers).mp ⟨data, hdata⟩

theorem rowOf_unique {df : LongData ℝ} (hk : UniqueKeys df) {ids pers : List Int} {i t : ℕ} {r r' : Option (LongRow ℝ)} (h : RowOf df ids pers i t r) (h' : RowOf df ids pers i t r') : r = r' := by
  cases r with
  | none =>
    cases r' with
    | none => rfl
    | some r' => exact absurd h'.2 (h.2 r' h'.1)
  | some r =>
    cases r' with
    | none => exact absurd h.2 (h'.2 r h.1)
    | some r' =>
      have e1 : r.id = r'.id := Option.some.inj (h.2.1.symm.trans h'.2.1)
      have e2 : r.period = r'.period := Option.some.inj (h.2.2.symm.trans h'.2.2)
      exact congrArg some (List.inj_on_of_nodup_map hk h.1 h'.1 (by rw [e1, e2]))

/-- The value is a sum over the individuals. -/
theorem sum_by_id {ids : List Int} (hn : ids.Nodup) (xs : List ℝ) (hl : xs.length = ids.length) (c : Int → ℝ) (hc : ∀ i (h : i < ids.length), xs[i]? = some (c ids[i])) : xs.sum = (ids.map c).sum := by
  congr 1
  refine List.ext_getElem (by simpa using hl) (fun k h1 h2 => ?_)
  have h3 : k < ids.length := by omega
  have := hc k h3
  rw [List.getElem?_eq_getElem h1] at this
  rw [Option.some.inj this, List.getElem_map]

/-- The log likelihood of a dataset whose individuals are those of another dataset under different ids: the individual `σ x` has the data of individual `x`. -/
theorem value_relabelled {m : ModelDict ℝ} (hd : DictKeys m) (hclash : NoNameClash m) {df df' : LongData ℝ} (hi : IndexOk df) (hi' : IndexOk df') (hu : NoUnusedPeriods df) (hu' : NoUnusedPeriods df')
    {ids pers ids' pers' : List Int} (hids : IdsOf df ids) (hpers : PeriodsOf df pers) (hids' : IdsOf df' ids') (hpers' : PeriodsOf df' pers') {inputs inputs' : MaximizationInputs}
    (hin : getMaximizationInputs m df = .ok inputs) (hin' : getMaximizationInputs m df' = .ok inputs') {qr : QR} {custom : String → CustomFn} {nan : ℝ} {params : List (Loc × ℝ)} {out out' : LoglikeOutput}
    (h : inputs.loglike qr custom nan m params = .ok out) (h' : inputs'.loglike qr custom nan m params = .ok out') (σ : Int → Int) (hσ : ∀ x ∈ ids, ∀ y ∈ ids, σ x = σ y → x = y) (hmem : ∀ x, x ∈ ids' ↔ ∃ y ∈ ids, σ y = x)
    (hs : ∀ i i' : ℕ, i < ids.length → ids'[i']? = (ids[i]?).map σ → SameHistory m df ids pers i df' ids' pers' i') : out'.value = out.value := by
  obtain ⟨hl, hv⟩ := loglike_sum hd hclash hi hu hids hpers hin h
  obtain ⟨hl', hv'⟩ := loglike_sum hd hclash hi' hu' hids' hpers' hin' h'
  have hn : ids.Nodup := hids.1.imp (fun h => ne_of_lt h)
  have hn' : ids'.Nodup := hids'.1.imp (fun h => ne_of_lt h)
  have hperm : ids'.Perm (ids.map σ) := by
    refine (List.perm_ext_iff_of_nodup hn' (hn.map_on (fun x hx y hy => hσ x hx y hy))).mpr (fun x => ?_)
    rw [hmem, List.mem_map]
  have hc' : ∀ i (h : i < ids'.length), out'.contributions[i]? = some (out'.contributions.getD (ids'.idxOf ids'[i]) 0) := by
    intro i hi
    rw [hn'.idxOf_getElem, List.getD_eq_getElem?_getD, List.getElem?_eq_getElem (by omega), Option.getD_some]
  rw [hv, hv', sum_by_id hn' _ hl' (fun x => out'.contributions.getD (ids'.idxOf x) 0) hc', (hperm.map _).sum_eq, List.map_map]
  refine (sum_by_id hn _ hl _ (fun i hil => ?_)).symm
  have hx : σ ids[i] ∈ ids' := (hmem _).mpr ⟨_, List.getElem_mem hil, rfl⟩
  have hj := List.idxOf_lt_length_of_mem hx
  have hget : ids'[ids'.idxOf (σ ids[i])]? = (ids[i]?).map σ := by
    rw [List.getElem?_eq_getElem hj, List.getElem_idxOf, List.getElem?_eq_getElem hil, Option.map_some]
  obtain ⟨⟨x, e1, e2⟩, _⟩ := C113_own_data hd hclash hi hi' hu hu' hids hpers hids' hpers' hin hin' h h' (hs i _ hil hget)
  rw [e1]
  simp [List.getD_eq_getElem?_getD, e2]

/-- The dataset with other ids: `σ` gives the new ids. -/
def newIds (σ : Int → Int) (df : LongData ℝ) : LongData ℝ :=
  { df with idLevel := df.idLevel.map σ, rows := df.rows.map (fun r => { r with id := σ r.id }) }

section newIds
variable {σ : Int → Int} {df : LongData ℝ}

theorem newIds_index (hσ : Function.Injective σ) (hi : IndexOk df) : IndexOk (newIds σ df) := by
  refine ⟨hi.idNodup.map hσ, hi.periodNodup, ?_, ?_⟩
  · intro r hr
    obtain ⟨q, hq, rfl⟩ := List.mem_map.mp hr
    exact List.mem_map.mpr ⟨_, hi.ids q hq, rfl⟩
  · intro r hr
    obtain ⟨q, hq, rfl⟩ := List.mem_map.mp hr
    exact hi.periods q hq

theorem newIds_unused (hu : NoUnusedPeriods df) : NoUnusedPeriods (newIds σ df) := by
  intro p hp
  obtain ⟨r, hr, e⟩ := hu p hp
  exact ⟨_, List.mem_map.mpr ⟨r, hr, rfl⟩, e⟩

theorem newIds_periods {pers : List Int} (hpers : PeriodsOf df pers) : PeriodsOf (newIds σ df) pers := by
  refine ⟨hpers.1, fun p => (hpers.2 p).trans ⟨?_, ?_⟩⟩
  · rintro ⟨r, hr, e⟩
    exact ⟨_, List.mem_map.mpr ⟨r, hr, rfl⟩, e⟩
  · rintro ⟨r, hr, e⟩
    obtain ⟨q, hq, rfl⟩ := List.mem_map.mp hr
    exact ⟨q, hq, e⟩

theorem newIds_keys (hσ : Function.Injective σ) (hk : UniqueKeys df) : UniqueKeys (newIds σ df) := by
  have := List.Nodup.map (f := fun k : Int × Int => (σ k.1, k.2)) (fun a b h => Prod.ext (hσ (Prod.mk.inj h).1) (Prod.mk.inj h).2) hk
  unfold UniqueKeys newIds
  simpa [Function.comp_def] using this

theorem newIds_mem {ids ids' : List Int} (hids : IdsOf df ids) (hids' : IdsOf (newIds σ df) ids') (x : Int) : x ∈ ids' ↔ ∃ y ∈ ids, σ y = x := by
  rw [hids'.2]
  constructor
  · rintro ⟨r, hr, rfl⟩
    obtain ⟨q, hq, rfl⟩ := List.mem_map.mp hr
    exact ⟨q.id, (hids.2 _).mpr ⟨q, hq, rfl⟩, rfl⟩
  · rintro ⟨y, hy, rfl⟩
    obtain ⟨r, hr, rfl⟩ := (hids.2 _).mp hy
    exact ⟨_, List.mem_map.mpr ⟨r, hr, rfl⟩, rfl⟩

/-- The row of an individual with its new id. -/
theorem newIds_row (hσ : Function.Injective σ) {ids ids' pers : List Int} {i i' t : ℕ} (hil : i < ids.length) (he : ids'[i']? = (ids[i]?).map σ) {r : Option (LongRow ℝ)} (hr : RowOf df ids pers i t r) :
    RowOf (newIds σ df) ids' pers i' t (r.map (fun r => { r with id := σ r.id })) := by
  rw [List.getElem?_eq_getElem hil, Option.map_some] at he
  have hil' : i' < ids'.length := (List.getElem?_eq_some_iff.mp he).1
  cases r with
  | none =>
    refine ⟨hil', fun q hq hqi => ?_⟩
    obtain ⟨q', hq', rfl⟩ := List.mem_map.mp hq
    refine hr.2 q' hq' ⟨?_, hqi.2⟩
    rw [List.getElem?_eq_getElem hil]
    exact congrArg some (hσ (Option.some.inj (he.symm.trans hqi.1)))
  | some r =>
    refine ⟨List.mem_map.mpr ⟨r, hr.1, rfl⟩, ?_, hr.2.2⟩
    have := hr.2.1
    rw [List.getElem?_eq_getElem hil] at this
    rw [he, Option.some.inj this]

theorem valueIs_newId {m : ModelDict ℝ} {r : Option (LongRow ℝ)} {c : String} {v : Option ℝ} : ValueIs m (r.map (fun r => { r with id := σ r.id })) c v ↔ ValueIs m r c v := by
  have : ∀ o, baseValue (r.map (fun r => { r with id := σ r.id })) o = baseValue r o := by
    intro o
    unfold baseValue
    cases r <;> rfl
  unfold ValueIs
  simp only [this]

theorem newIds_value (hσ : Function.Injective σ) {m : ModelDict ℝ} {ids ids' pers : List Int} (hids : IdsOf df ids) (hids' : IdsOf (newIds σ df) ids') (hk : UniqueKeys df) {t : ℕ} {c : String} {v : Option ℝ} :
    (∃ i, HasValue m (newIds σ df) ids' pers i t c v) ↔ ∃ i, HasValue m df ids pers i t c v := by
  constructor
  · rintro ⟨i', hi', r', hr', hv⟩
    obtain ⟨y, hy, e⟩ := (newIds_mem hids hids' ids'[i']).mp (List.getElem_mem hi')
    obtain ⟨i, hi⟩ := List.getElem?_of_mem hy
    have hil := (List.getElem?_eq_some_iff.mp hi).1
    obtain ⟨r, hr⟩ := exists_rowOf df ids pers t hil
    have := newIds_row hσ hil (i' := i') (ids' := ids') (by rw [hi, Option.map_some, e, List.getElem?_eq_getElem hi']) hr
    rw [rowOf_unique (newIds_keys hσ hk) hr' this, valueIs_newId] at hv
    exact ⟨i, hil, r, hr, hv⟩
  · rintro ⟨i, hil, r, hr, hv⟩
    obtain ⟨i', hi'⟩ := List.getElem?_of_mem ((newIds_mem hids hids' (σ ids[i])).mpr ⟨_, List.getElem_mem hil, rfl⟩)
    exact ⟨i', (List.getElem?_eq_some_iff.mp hi').1, _, newIds_row hσ hil (by rw [hi', List.getElem?_eq_getElem hil, Option.map_some]) hr, valueIs_newId.mpr hv⟩

theorem newIds_ok (hσ : Function.Injective σ) {m : ModelDict ℝ} {ids ids' pers : List Int} (hids : IdsOf df ids) (hids' : IdsOf (newIds σ df) ids') (h : DataOk m df ids pers) : DataOk m (newIds σ df) ids' pers where
  keys := newIds_keys hσ h.keys
  outcomes := h.outcomes
  controls := by
    intro t ht c hc
    obtain ⟨h1, i, y, h2⟩ := h.controls t ht c hc
    obtain ⟨i', h3⟩ := (newIds_value hσ hids hids' h.keys).mpr ⟨i, h2⟩
    exact ⟨h1, i', y, h3⟩
  measurements := by
    intro t v hv
    obtain ⟨h1, h2⟩ := h.measurements t v hv
    refine ⟨h1, ?_⟩
    simpa only [newIds_value hσ hids hids' h.keys] using h2
  observed := by
    intro t ht f hf
    obtain ⟨h1, h2⟩ := h.observed t ht f hf
    refine ⟨h1, fun i hv => ?_⟩
    obtain ⟨i', h3⟩ := (newIds_value hσ hids hids' h.keys).mp ⟨i, hv⟩
    exact h2 i' h3

end newIds

/-- **C113**: the ids of the individuals do not matter. With other ids, the dataset is accepted, the likelihood function can be evaluated, and the log likelihood and the contribution of each individual are the same. -/
theorem C113_ids {m : ModelDict ℝ} (hd : DictKeys m) (hclash : NoNameClash m) {df : LongData ℝ} (hi : IndexOk df) (hu : NoUnusedPeriods df) {σ : Int → Int} (hσ : Function.Injective σ)
    {ids pers ids' : List Int} (hids : IdsOf df ids) (hpers : PeriodsOf df pers) (hids' : IdsOf (newIds σ df) ids') {inputs : MaximizationInputs}
    (hin : getMaximizationInputs m df = .ok inputs) {qr : QR} {custom : String → CustomFn} {nan : ℝ} {params : List (Loc × ℝ)} {out : LoglikeOutput} (h : inputs.loglike qr custom nan m params = .ok out) :
    ∃ inputs' out', getMaximizationInputs m (newIds σ df) = .ok inputs' ∧ inputs'.loglike qr custom nan m params = .ok out' ∧ out'.value = out.value ∧
      ∀ (i i' : ℕ) (x : Int), ids[i]? = some x → ids'[i']? = some (σ x) → ∃ c, out.contributions[i]? = some c ∧ out'.contributions[i']? = some c := by
  have hi' := newIds_index hσ hi
  have hu' : NoUnusedPeriods (newIds σ df) := newIds_unused hu
  have hpers' : PeriodsOf (newIds σ df) pers := newIds_periods hpers
  have hok := newIds_ok hσ hids hids' (accepted_dataOk hd hclash hi hu hids hpers hin)
  obtain ⟨inputs', hin'⟩ : ∃ inputs', getMaximizationInputs m (newIds σ df) = .ok inputs' := by
    have h0 := hin
    unfold getMaximizationInputs at h0 ⊢
    simp only [py_bind_ok, py_pure_ok] at h0 ⊢
    obtain ⟨pm, hpm, info, hinfo, data, hdata, cs, hcs, _⟩ := h0
    obtain ⟨data', hdata'⟩ := (C66_accepts_iff hpm hd hclash hi' hu' hids' hpers').mpr hok
    exact ⟨_, pm, hpm, info, hinfo, data', hdata', cs, hcs, rfl⟩
  obtain ⟨out', h'⟩ := loglike_other hd hclash hi hi' hu hu' hids hpers hids' hpers' hin hin' h
  have hs : ∀ i i' : ℕ, i < ids.length → ids'[i']? = (ids[i]?).map σ → SameHistory m df ids pers i (newIds σ df) ids' pers i' := by
    intro i i' hil he
    have hil' : i' < ids'.length := by
      rw [List.getElem?_eq_getElem hil, Option.map_some] at he
      exact (List.getElem?_eq_some_iff.mp he).1
    refine ⟨hil, hil', fun t ht r r' hr hr' => ?_⟩
    rw [rowOf_unique hok.keys hr' (newIds_row hσ hil he hr)]
    intro c _
    cases r <;> rfl
  refine ⟨inputs', out', hin', h', value_relabelled hd hclash hi hi' hu hu' hids hpers hids' hpers' hin hin' h h' σ (fun x _ y _ e => hσ e) (newIds_mem hids hids') hs, fun i i' x hx hx' => ?_⟩
  have hil := (List.getElem?_eq_some_iff.mp hx).1
  exact (C113_own_data hd hclash hi hi' hu hu' hids hpers hids' hpers' hin hin' h h' (hs i i' hil (by rw [hx', hx, Option.map_some]))).1

/-- **C113**: whether the likelihood function can be evaluated does not depend on the dataset, as long as get_maximization_inputs accepts it. -/
theorem C113_evaluates {m : ModelDict ℝ} (hd : DictKeys m) (hclash : NoNameClash m) {df df' : LongData ℝ} (hi : IndexOk df) (hi' : IndexOk df') (hu : NoUnusedPeriods df) (hu' : NoUnusedPeriods df')
    {ids pers ids' pers' : List Int} (hids : IdsOf df ids) (hpers : PeriodsOf df pers) (hids' : IdsOf df' ids') (hpers' : PeriodsOf df' pers') {inputs inputs' : MaximizationInputs}
    (hin : getMaximizationInputs m df = .ok inputs) (hin' : getMaximizationInputs m df' = .ok inputs') (qr : QR) (custom : String → CustomFn) (nan : ℝ) (params : List (Loc × ℝ)) :
    (∃ out, inputs.loglike qr custom nan m params = .ok out) ↔ ∃ out', inputs'.loglike qr custom nan m params = .ok out' :=
  ⟨fun ⟨_, h⟩ => loglike_other hd hclash hi hi' hu hu' hids hpers hids' hpers' hin hin' h, fun ⟨_, h⟩ => loglike_other hd hclash hi' hi hu' hu hids' hpers' hids hpers hin' hin h⟩

/-- **C113**: columns that the model does not use do not matter, and neither do the order of the rows, nor rows of periods after the last period of the model: if both datasets have the same individuals and the same
values in the used columns in all periods of the model, then the log likelihood and all contributions are the same. -/
theorem C113_used_columns {m : ModelDict ℝ} (hd : DictKeys m) (hclash : NoNameClash m) {df df' : LongData ℝ} (hi : IndexOk df) (hi' : IndexOk df') (hu : NoUnusedPeriods df) (hu' : NoUnusedPeriods df')
    {ids pers pers' : List Int} (hids : IdsOf df ids) (hpers : PeriodsOf df pers) (hids' : IdsOf df' ids) (hpers' : PeriodsOf df' pers') {inputs inputs' : MaximizationInputs}
    (hin : getMaximizationInputs m df = .ok inputs) (hin' : getMaximizationInputs m df' = .ok inputs') {qr : QR} {custom : String → CustomFn} {nan : ℝ} {params : List (Loc × ℝ)} {out out' : LoglikeOutput}
    (h : inputs.loglike qr custom nan m params = .ok out) (h' : inputs'.loglike qr custom nan m params = .ok out')
    (hs : ∀ i t r r', i < ids.length → IsPeriod m t → RowOf df ids pers i t r → RowOf df' ids pers' i t r' → SameCells m r r') : out' = out := by
  obtain ⟨nMix, n, r, r', _, h1, h2, h8, h3, h4, h5, h6, h7⟩ := evaluate_own hd hclash hi hi' hu hu' hids hpers hids' hpers' hin hin' h h'
  obtain rfl := Except.ok.inj h1
  obtain rfl := Except.ok.inj h2
  have key := fun i : Fin ids.length => h7 i i ⟨i.isLt, i.isLt, fun t ht r r' hr hr' => hs i t r r' i.isLt ht hr hr'⟩
  have e1 : r.contributions = r'.contributions := funext (fun i => (key i).1)
  have e2 : r.allContributions = r'.allContributions := by
    rw [h3, h4]
    refine List.ext_getElem (by simpa using h8) (fun k k1 k2 => ?_)
    funext i
    have e3 := congrArg (fun os => (os[k]?).map (fun o : StepOut 1 nMix n => o.loglikes 0)) (key i).2
    simp only [List.length_map] at k1 k2
    simpa [StepOut.select, k1, k2] using e3
  unfold LoglikeResult.output
  rw [h5, h6, e1, e2]

/-- **C113**: the log likelihood of the rows of two datasets with different individuals and the same periods is the sum of both log likelihoods. -/
theorem C113_pooled {m : ModelDict ℝ} (hd : DictKeys m) (hclash : NoNameClash m) {df df' df'' : LongData ℝ} (hi : IndexOk df) (hi' : IndexOk df') (hi'' : IndexOk df'') (hu : NoUnusedPeriods df) (hu' : NoUnusedPeriods df')
    (hu'' : NoUnusedPeriods df'') {ids ids' ids'' pers : List Int} (hids : IdsOf df ids) (hpers : PeriodsOf df pers) (hids' : IdsOf df' ids') (hpers' : PeriodsOf df' pers) (hids'' : IdsOf df'' ids'')
    (hrows : df''.rows.Perm (df.rows ++ df'.rows)) (hdisj : ∀ x ∈ ids, x ∉ ids') {inputs inputs' inputs'' : MaximizationInputs}
    (hin : getMaximizationInputs m df = .ok inputs) (hin' : getMaximizationInputs m df' = .ok inputs') (hin'' : getMaximizationInputs m df'' = .ok inputs'') {qr : QR} {custom : String → CustomFn} {nan : ℝ}
    {params : List (Loc × ℝ)} {out out' out'' : LoglikeOutput} (h : inputs.loglike qr custom nan m params = .ok out) (h' : inputs'.loglike qr custom nan m params = .ok out')
    (h'' : inputs''.loglike qr custom nan m params = .ok out'') : out''.value = out.value + out'.value := by
  have hpers'' : PeriodsOf df'' pers := by
    refine ⟨hpers.1, fun p => ⟨fun hp => ?_, ?_⟩⟩
    · obtain ⟨r, hr, e⟩ := (hpers.2 p).mp hp
      exact ⟨r, hrows.mem_iff.mpr (List.mem_append_left _ hr), e⟩
    · rintro ⟨r, hr, e⟩
      rcases List.mem_append.mp (hrows.mem_iff.mp hr) with hr | hr
      · exact (hpers.2 p).mpr ⟨r, hr, e⟩
      · exact (hpers'.2 p).mpr ⟨r, hr, e⟩
  have hk : UniqueKeys df'' := (accepted_dataOk hd hclash hi'' hu'' hids'' hpers'' hin'').keys
  have hn : ids.Nodup := hids.1.imp (fun h => ne_of_lt h)
  have hn' : ids'.Nodup := hids'.1.imp (fun h => ne_of_lt h)
  have hn'' : ids''.Nodup := hids''.1.imp (fun h => ne_of_lt h)
  have hmem : ∀ x, x ∈ ids'' ↔ x ∈ ids ∨ x ∈ ids' := by
    intro x
    rw [hids''.2, hids.2, hids'.2]
    simp only [hrows.mem_iff, List.mem_append, or_and_right, exists_or]
  have hperm : ids''.Perm (ids ++ ids') := by
    refine (List.perm_ext_iff_of_nodup hn'' (List.nodup_append.mpr ⟨hn, hn', fun x hx y hy e => hdisj x hx (e ▸ hy)⟩)).mpr (fun x => ?_)
    rw [hmem, List.mem_append]
  have hc : ∀ i (h : i < ids''.length), out''.contributions[i]? = some (out''.contributions.getD (ids''.idxOf ids''[i]) 0) := by
    intro i hi
    have hl := (loglike_sum hd hclash hi'' hu'' hids'' hpers'' hin'' h'').1
    rw [hn''.idxOf_getElem, List.getD_eq_getElem?_getD, List.getElem?_eq_getElem (by omega), Option.getD_some]
  -- the individuals of one of the two datasets
  have part : ∀ {df1 : LongData ℝ} {ids1 : List Int} {inputs1 : MaximizationInputs} {out1 : LoglikeOutput}, IndexOk df1 → NoUnusedPeriods df1 → IdsOf df1 ids1 → PeriodsOf df1 pers → getMaximizationInputs m df1 = .ok inputs1 →
      inputs1.loglike qr custom nan m params = .ok out1 → (∀ x ∈ ids1, x ∈ ids'') → (∀ r ∈ df''.rows, r.id ∈ ids1 → r ∈ df1.rows) → (∀ r ∈ df1.rows, r ∈ df''.rows) →
      out1.value = (ids1.map (fun x => out''.contributions.getD (ids''.idxOf x) 0)).sum := by
    intro df1 ids1 inputs1 out1 hi1 hu1 hids1 hpers1 hin1 h1 hsub hback hrow
    obtain ⟨hl1, hv1⟩ := loglike_sum hd hclash hi1 hu1 hids1 hpers1 hin1 h1
    rw [hv1]
    refine sum_by_id (hids1.1.imp (fun h => ne_of_lt h)) _ hl1 _ (fun i hil => ?_)
    have hx : ids1[i] ∈ ids'' := hsub _ (List.getElem_mem hil)
    have hj := List.idxOf_lt_length_of_mem hx
    have hget : ids''[ids''.idxOf ids1[i]]? = ids1[i]? := by
      rw [List.getElem?_eq_getElem hj, List.getElem_idxOf, List.getElem?_eq_getElem hil]
    have hs : SameHistory m df1 ids1 pers i df'' ids'' pers (ids''.idxOf ids1[i]) := by
      refine ⟨hil, hj, fun t ht r r' hr hr' => ?_⟩
      have hr2 : RowOf df'' ids'' pers (ids''.idxOf ids1[i]) t r := by
        cases r with
        | none =>
          refine ⟨hj, fun q hq hqi => hr.2 q (hback q hq ?_) ⟨hget ▸ hqi.1, hqi.2⟩⟩
          have := hget ▸ hqi.1
          exact List.mem_of_getElem? this
        | some r => exact ⟨hrow r hr.1, by rw [hget]; exact hr.2.1, hr.2.2⟩
      rw [rowOf_unique hk hr' hr2]
      exact fun c _ => rfl
    obtain ⟨⟨x, e1, e2⟩, _⟩ := C113_own_data hd hclash hi1 hi'' hu1 hu'' hids1 hpers1 hids'' hpers'' hin1 hin'' h1 h'' hs
    rw [e1]
    simp [List.getD_eq_getElem?_getD, e2]
  obtain ⟨hl'', hv''⟩ := loglike_sum hd hclash hi'' hu'' hids'' hpers'' hin'' h''
  rw [hv'', sum_by_id hn'' _ hl'' (fun x => out''.contributions.getD (ids''.idxOf x) 0) hc, (hperm.map _).sum_eq, List.map_append, List.sum_append,
    part hi hu hids hpers hin h (fun x hx => (hmem x).mpr (Or.inl hx)) ?_ (fun r hr => hrows.mem_iff.mpr (List.mem_append_left _ hr)),
    part hi' hu' hids' hpers' hin' h' (fun x hx => (hmem x).mpr (Or.inr hx)) ?_ (fun r hr => hrows.mem_iff.mpr (List.mem_append_right _ hr))]
  · intro r hr hx
    rcases List.mem_append.mp (hrows.mem_iff.mp hr) with hr | hr
    · exact absurd hx (hdisj _ ((hids.2 _).mpr ⟨r, hr, rfl⟩))
    · exact hr
  · intro r hr hx
    rcases List.mem_append.mp (hrows.mem_iff.mp hr) with hr | hr
    · exact hr
    · exact absurd ((hids'.2 _).mpr ⟨r, hr, rfl⟩) (hdisj _ hx)

end Skill
