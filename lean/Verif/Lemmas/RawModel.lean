import Verif.Spec.RawModel
import Verif.Props.CheckModel
import Mathlib.Data.Rat.Cast.Order
import Mathlib.Tactic.NormNum
namespace Skill

theorem py_error_ne {β : Type _} {e : PyErr} {v : β} : ¬ ((Except.error e : Py β) = .ok v) := by intro h; cases h

theorem pyEq_str (a : Atom) (s : String) : a.pyEq (.str s) = decide (a = .str s) := by
  cases a <;> simp [Atom.pyEq, Atom.num]

theorem lookupKey_iff (kvs : List (Atom × PyVal)) (key : String) (v : PyVal) :
    lookupKey kvs (.str key) = some v ↔ ∃ before after, kvs = before ++ (.str key, v) :: after ∧ ∀ kv ∈ before, kv.1 ≠ .str key := by
  unfold lookupKey
  rw [Option.map_eq_some_iff]
  simp only [List.find?_eq_some_iff_append, pyEq_str, decide_eq_true_eq]
  constructor
  · rintro ⟨⟨k, v'⟩, ⟨h1, as, bs, h2, h3⟩, rfl⟩
    refine ⟨as, bs, ?_, ?_⟩
    · rw [h2, ← h1]
    · intro kv hk
      have := h3 kv hk
      simpa using this
  · rintro ⟨as, bs, h1, h2⟩
    exact ⟨(.str key, v), ⟨rfl, as, bs, h1, fun kv hk => by simpa using h2 kv hk⟩, rfl⟩

theorem has_dict (kvs : List (Atom × PyVal)) (key : String) (v : PyVal) :
    Spec.Has (.dict kvs) key v ↔ lookupKey kvs (.str key) = some v := by
  rw [lookupKey_iff]
  unfold Spec.Has
  simp only [PyVal.dict.injEq]

theorem has_isPyDict {m : PyVal} {key : String} {v : PyVal} (h : Spec.Has m key v) : Spec.IsPyDict m := by
  obtain ⟨b, a, h, _⟩ := h
  exact ⟨_, h⟩

theorem has_unique {m : PyVal} {key : String} {v w : PyVal} (h : Spec.Has m key v) (h' : Spec.Has m key w) : v = w := by
  obtain ⟨kvs, rfl⟩ := has_isPyDict h
  rw [has_dict] at h h'
  rw [h] at h'
  exact Option.some.inj h'

theorem getItem_ok_iff (m : PyVal) (key : String) (v : PyVal) : m.getItem key = .ok v ↔ Spec.Has m key v := by
  constructor
  · intro h
    cases m with
    | dict kvs =>
      rw [has_dict]
      simp only [PyVal.getItem] at h
      cases hl : lookupKey kvs (.str key) with
      | none => rw [hl] at h; cases h
      | some w => rw [hl] at h; cases h; rfl
    | _ => cases h
  · intro h
    obtain ⟨kvs, rfl⟩ := has_isPyDict h
    rw [has_dict] at h
    simp only [PyVal.getItem, h]
    rfl

theorem get_ok_iff (m : PyVal) (key : String) (d v : PyVal) :
    m.get key d = .ok v ↔ Spec.IsPyDict m ∧ (Spec.Has m key v ∨ (∀ w, ¬ Spec.Has m key w) ∧ v = d) := by
  constructor
  · intro h
    cases m with
    | dict kvs =>
      refine ⟨⟨kvs, rfl⟩, ?_⟩
      simp only [has_dict]
      simp only [PyVal.get] at h
      cases hl : lookupKey kvs (.str key) with
      | none => rw [hl] at h; cases h; exact Or.inr ⟨fun w hw => by simp at hw, rfl⟩
      | some w => rw [hl] at h; cases h; exact Or.inl rfl
    | _ => cases h
  · rintro ⟨⟨kvs, rfl⟩, h⟩
    simp only [has_dict] at h
    simp only [PyVal.get]
    rcases h with h | ⟨h, rfl⟩
    · rw [h]; rfl
    · cases hl : lookupKey kvs (.str key) with
      | none => rfl
      | some w => exact absurd hl (h w)

/-- A value of `get` satisfies what is assumed about optional sections and about the default value. -/
theorem get_property {m : PyVal} {key : String} {d v : PyVal} {P : PyVal → Prop} (hd : P d) (h : m.get key d = .ok v) :
    Spec.Optional m key P ↔ P v := by
  rw [get_ok_iff] at h
  obtain ⟨_, h⟩ := h
  constructor
  · intro hp
    rcases h with h | ⟨_, rfl⟩
    · exact hp v h
    · exact hd
  · intro hv w hw
    rcases h with h | ⟨h, _⟩
    · rw [has_unique hw h]; exact hv
    · exact absurd hw (h w)

theorem get_exists {m : PyVal} (hm : Spec.IsPyDict m) (key : String) (d : PyVal) : ∃ v, m.get key d = .ok v := by
  obtain ⟨kvs, rfl⟩ := hm
  exact ⟨_, rfl⟩

theorem items_ok_iff (v : PyVal) (kvs : List (Atom × PyVal)) : v.items = .ok kvs ↔ v = .dict kvs := by
  cases v <;> simp [PyVal.items]

theorem len_ok_iff (v : PyVal) : (∃ n, v.len = .ok n) ↔ Spec.HasElements v := by
  unfold Spec.HasElements Spec.IsPyDict
  cases v with
  | atom a => cases a <;> simp [PyVal.len]
  | _ => simp [PyVal.len]

theorem toList_ok_iff (v : PyVal) : (∃ n, v.toList = .ok n) ↔ Spec.HasElements v := by
  unfold Spec.HasElements Spec.IsPyDict
  cases v with
  | atom a => cases a <;> simp [PyVal.toList]
  | _ => simp [PyVal.toList]

theorem isBool_iff (v : PyVal) : v.isBool = true ↔ Spec.IsBool v := by
  unfold Spec.IsBool
  cases v with
  | atom a => cases a with
    | bool b => cases b <;> simp [PyVal.isBool]
    | _ => simp [PyVal.isBool]
  | _ => simp [PyVal.isBool]

theorem isName_iff (v : PyVal) : v.isName = true ↔ Spec.IsName v := by
  unfold Spec.IsName Spec.IsBool
  cases v with
  | atom a => cases a with
    | bool b => cases b <;> simp [PyVal.isName]
    | _ => simp [PyVal.isName]
  | _ => simp [PyVal.isName]

theorem num_iff (a : Atom) (x : Rat) : a.num = some x ↔ Spec.IsNumber a x := by
  constructor
  · intro h
    cases a with
    | bool b => cases b <;> (simp [Atom.num] at h; subst h; constructor)
    | int z => simp [Atom.num] at h; subst h; constructor
    | float y => simp [Atom.num] at h; subst h; constructor
    | _ => simp [Atom.num] at h
  · intro h
    cases h <;> simp [Atom.num]

theorem pyEq_iff (a b : Atom) : a.pyEq b = true ↔ Spec.SameName a b := by
  unfold Spec.SameName
  simp only [← num_iff]
  unfold Atom.pyEq
  cases ha : a.num with
  | none =>
    cases hb : b.num with
    | none => simp
    | some y =>
      simp only [Bool.false_eq_true, reduceCtorEq, false_and, exists_false, or_false, false_iff]
      rintro rfl
      rw [ha] at hb; cases hb
  | some x =>
    cases hb : b.num with
    | none =>
      simp only [Bool.false_eq_true, reduceCtorEq, and_false, exists_false, or_false, false_iff]
      rintro rfl
      rw [ha] at hb; cases hb
    | some y =>
      simp only [decide_eq_true_eq]
      constructor
      · rintro rfl; exact Or.inr ⟨x, rfl, rfl⟩
      · rintro (rfl | ⟨z, h1, h2⟩)
        · rw [ha] at hb; exact Option.some.inj hb
        · rw [Option.some.inj h1, Option.some.inj h2]

theorem isZero_iff (v : PyVal) : v.eqAtom (.int 0) = true ↔ Spec.IsZero v := by
  unfold Spec.IsZero
  cases v with
  | atom a =>
    simp only [PyVal.eqAtom, PyVal.atom.injEq, exists_eq_left', ← num_iff]
    unfold Atom.pyEq
    cases ha : a.num <;> simp [Atom.num]
  | _ => simp [PyVal.eqAtom]

theorem any_eqAtom_iff (xs : List PyVal) (b : Atom) : xs.any (PyVal.eqAtom b) = true ↔ ∃ a, PyVal.atom a ∈ xs ∧ Spec.SameName a b := by
  rw [List.any_eq_true]
  constructor
  · rintro ⟨x, hx, h⟩
    cases x with
    | atom a => exact ⟨a, hx, (pyEq_iff _ _).mp h⟩
    | _ => simp [PyVal.eqAtom] at h
  · rintro ⟨a, ha, h⟩
    exact ⟨_, ha, (pyEq_iff _ _).mpr h⟩

theorem option_mapM_iff {β γ : Type _} (f : β → Option γ) (xs : List β) (ys : List γ) :
    xs.mapM f = some ys ↔ List.Forall₂ (fun x y => f x = some y) xs ys := by
  induction xs generalizing ys with
  | nil => simp [eq_comm]
  | cons x xs ih =>
    rw [List.mapM_cons]
    constructor
    · intro h
      rw [Option.bind_eq_bind, Option.bind_eq_some_iff] at h
      obtain ⟨y, hy, h⟩ := h
      rw [Option.bind_eq_bind, Option.bind_eq_some_iff] at h
      obtain ⟨ys', hys, h⟩ := h
      cases h
      exact List.Forall₂.cons hy ((ih _).mp hys)
    · intro h
      cases h with
      | cons hy h =>
        rw [hy, (ih _).mpr h]
        rfl

theorem entries_iff (v : PyVal) (kvs : List (Atom × PyVal)) : v.entries = some kvs ↔ v = .dict kvs := by
  cases v <;> simp [PyVal.entries]

theorem normDicts_iff (v : PyVal) (ds : List (List (Atom × PyVal))) : v.normDicts = some ds ↔ v = .list (ds.map .dict) := by
  cases v with
  | list xs =>
    simp only [PyVal.normDicts, PyVal.list.injEq]
    rw [option_mapM_iff]
    simp only [entries_iff]
    rw [← List.forall₂_eq_eq_eq, List.forall₂_map_right_iff]
  | _ => simp [PyVal.normDicts]

theorem number_iff (v : PyVal) (x : Rat) : v.number = some x ↔ (∃ z : Int, v = .atom (.int z) ∧ x = z) ∨ v = .atom (.float x) := by
  cases v with
  | atom a => cases a <;> simp [PyVal.number, eq_comm]
  | _ => simp [PyVal.number]

theorem numbers_iff (v : PyVal) (xs : List Rat) : v.numbers = some xs ↔ Spec.Numbers v xs := by
  unfold Spec.Numbers
  cases v with
  | list es => simp [PyVal.numbers, option_mapM_iff, number_iff]
  | tuple es => simp [PyVal.numbers, option_mapM_iff, number_iff]
  | _ => simp [PyVal.numbers]

/-! ### Stagemaps -/

theorem mem_insertUniqRat (x y : Rat) (l : List Rat) : y ∈ insertUniqRat x l ↔ y = x ∨ y ∈ l := by
  induction l with
  | nil => simp [insertUniqRat]
  | cons z zs ih =>
    simp only [insertUniqRat]
    split
    · simp
    · split
      · rename_i h; subst h; simp
      · rw [List.mem_cons, ih, List.mem_cons]; tauto

theorem mem_foldr_insertUniqRat (y : Rat) (l : List Rat) : y ∈ l.foldr insertUniqRat [] ↔ y ∈ l := by
  induction l with
  | nil => simp
  | cons z zs ih => rw [List.foldr_cons, mem_insertUniqRat, ih, List.mem_cons]

theorem insertUniqRat_cast (x : Int) (l : List Int) :
    insertUniqRat (x : Rat) (l.map (fun (z : Int) => (z : Rat))) = (insertUniq x l).map (fun (z : Int) => (z : Rat)) := by
  induction l with
  | nil => simp [insertUniq, insertUniqRat]
  | cons z zs ih =>
    simp only [insertUniq, insertUniqRat, List.map_cons, Int.cast_lt, Int.cast_inj, ih]
    split
    · simp
    · split <;> simp

theorem npUnique_cast (l : List Int) :
    (l.map (fun (z : Int) => (z : Rat))).foldr insertUniqRat [] = (npUnique l).map (fun (z : Int) => (z : Rat)) := by
  induction l with
  | nil => simp [npUnique]
  | cons z zs ih =>
    rw [List.map_cons, List.foldr_cons, ih, insertUniqRat_cast]
    rfl

theorem rawStagemap_cast {v : PyVal} {sm : List Int} (odd : PyVal → Nat → Py (List String))
    (h : v.numbers = some (sm.map (fun (z : Int) => (z : Rat)))) (n : Nat) :
    rawStagemap odd v n = .ok (checkStagemap sm (npUnique sm) n) := by
  unfold rawStagemap checkStagemap
  rw [h]
  dsimp only
  have h1 : ((npUnique sm).map (fun (z : Int) => (z : Rat)) ≠ (List.range ((npUnique sm).map (fun (z : Int) => (z : Rat))).length).map (fun (i : Nat) => (i : Rat)))
      ↔ npUnique sm ≠ (List.range (npUnique sm).length).map Int.ofNat := by
    rw [List.length_map, not_iff_not]
    have : (List.range (npUnique sm).length).map (fun (i : Nat) => (i : Rat))
        = ((List.range (npUnique sm).length).map Int.ofNat).map (fun (z : Int) => (z : Rat)) := by simp
    rw [this]
    exact (List.map_injective_iff.mpr Int.cast_injective).eq_iff
  have h2 : (List.zipWith (fun a b => a - b) ((sm.map (fun (z : Int) => (z : Rat))).drop 1) (sm.map (fun (z : Int) => (z : Rat))).dropLast)
      = (List.zipWith (fun a b => a - b) (sm.drop 1) sm.dropLast).map (fun (z : Int) => (z : Rat)) := by
    rw [← List.map_drop, ← List.map_dropLast, List.zipWith_map, List.map_zipWith]
    simp
  rw [npUnique_cast, h2, List.all_map, List.length_map]
  have h3 : ((fun x => decide (x = 0 ∨ x = 1)) ∘ (fun (z : Int) => (z : Rat))) = (fun (x : Int) => decide (x = 0 ∨ x = 1)) := by
    funext x
    simp [Function.comp]
  rw [h3]
  simp only [h1]

theorem rawStagemap_nil_iff {v : PyVal} {xs : List Rat} (odd : PyVal → Nat → Py (List String)) (h : v.numbers = some xs) (n : Nat) :
    rawStagemap odd v n = .ok [] ↔ ∃ sm : List Int, xs = sm.map (fun (z : Int) => (z : Rat)) ∧ Spec.ValidStagemap sm n := by
  constructor
  · intro hr
    have hint : ∃ sm : List Int, xs = sm.map (fun (z : Int) => (z : Rat)) := by
      have hr' := hr
      unfold rawStagemap at hr'
      rw [h] at hr'
      dsimp only at hr'
      have := Except.ok.inj hr'
      rw [List.append_eq_nil_iff, List.append_eq_nil_iff] at this
      obtain ⟨⟨_, h2⟩, _⟩ := this
      simp only [ite_eq_right_iff, List.cons_ne_nil, imp_false, not_not] at h2
      have hall : ∀ x ∈ xs, ∃ z : Int, (z : Rat) = x := by
        intro x hx
        rw [← mem_foldr_insertUniqRat, h2, List.mem_map] at hx
        obtain ⟨i, _, rfl⟩ := hx
        exact ⟨i, by simp⟩
      refine ⟨xs.map (fun x => x.num), ?_⟩
      rw [List.map_map]
      symm
      conv_rhs => rw [← List.map_id xs]
      apply List.map_congr_left
      intro x hx
      obtain ⟨z, rfl⟩ := hall x hx
      simp
    obtain ⟨sm, rfl⟩ := hint
    refine ⟨sm, rfl, ?_⟩
    rw [rawStagemap_cast odd h] at hr
    exact (checkStagemap_nil_iff sm n).mp (Except.ok.inj hr)
  · rintro ⟨sm, rfl, hv⟩
    rw [rawStagemap_cast odd h, (checkStagemap_nil_iff sm n).mpr hv]

/-! ### Measurements, normalizations, anchoring -/

theorem rawCheckMeasurements_nil_iff (v : PyVal) :
    rawCheckMeasurements v = [] ↔ ∃ measurements : List (List PyVal), v = .list (measurements.map .list) ∧
      ∀ period ∈ measurements, ∀ meas ∈ period, Spec.IsName meas := by
  cases v with
  | list xs =>
    simp only [rawCheckMeasurements, PyVal.list.injEq]
    constructor
    · intro h
      split at h
      · rename_i ha
        rw [List.all_eq_true] at ha
        refine ⟨xs.map PyVal.elements, ?_, ?_⟩
        · rw [List.map_map]
          conv_lhs => rw [← List.map_id xs]
          apply List.map_congr_left
          intro x hx
          have := ha x hx
          cases x <;> first | rfl | (simp [PyVal.isList] at this)
        · intro period hp meas hm
          rw [List.mem_map] at hp
          obtain ⟨x, hx, rfl⟩ := hp
          rw [List.flatMap_eq_nil_iff] at h
          have := h meas (List.mem_flatMap.mpr ⟨x, hx, hm⟩)
          rw [← isName_iff]
          by_contra hc
          rw [if_neg hc] at this
          cases this
      · cases h
    · rintro ⟨ms, rfl, h⟩
      rw [if_pos]
      · rw [List.flatMap_eq_nil_iff]
        intro meas hm
        rw [List.mem_flatMap] at hm
        obtain ⟨x, hx, hm⟩ := hm
        rw [List.mem_map] at hx
        obtain ⟨p, hp, rfl⟩ := hx
        rw [if_pos ((isName_iff _).mpr (h p hp meas hm))]
      · simp [PyVal.isList]
  | _ => simp [rawCheckMeasurements]

theorem mapM_nil_iff {β γ : Type} (f : β → Py (List γ)) (xs : List β) :
    (∃ rs, xs.mapM f = .ok rs ∧ rs.flatten = []) ↔ ∀ x ∈ xs, f x = .ok [] := by
  constructor
  · rintro ⟨rs, h1, h2⟩ x hx
    rw [mapM_ok_iff] at h1
    obtain ⟨r, hr, hf⟩ := forall₂_mem h1 hx
    rw [List.flatten_eq_nil_iff] at h2
    rw [hf, h2 r hr]
  · intro h
    obtain ⟨rs, hrs⟩ := mapM_exists (f := f) (xs := xs) (fun x hx => ⟨_, h x hx⟩)
    refine ⟨rs, hrs, ?_⟩
    rw [List.flatten_eq_nil_iff]
    intro r hr
    rw [mapM_ok_iff] at hrs
    obtain ⟨x, hx, hf⟩ := forall₂_mem_right hrs hr
    rw [h x hx] at hf
    exact (Except.ok.inj hf).symm

theorem rawCheckPresent_nil_iff (ds : List (List (Atom × PyVal))) (ms : List (List PyVal)) :
    rawCheckPresent ds (.list (ms.map .list)) = .ok [] ↔
      ∀ (t : Nat) (d : List (Atom × PyVal)), ds[t]? = some d → ∀ kv ∈ d, ∃ period, ms[t]? = some period ∧ ∃ a, PyVal.atom a ∈ period ∧ Spec.SameName a kv.1 := by
  have hone : ∀ (t : Nat) (kv : Atom × PyVal), (do
      let meas ← (PyVal.list (ms.map .list)).index t
      let found ← meas.contains kv.1
      pure (if found then [] else ["not a measurement: " ++ kv.1.text]) : Py (List String)) = .ok [] ↔
        ∃ period, ms[t]? = some period ∧ ∃ a, PyVal.atom a ∈ period ∧ Spec.SameName a kv.1 := by
    intro t kv
    simp only [PyVal.index, pyIndex, List.getElem?_map]
    cases hm : ms[t]? with
    | none => simp [bind, Except.bind]
    | some period =>
      simp only [Option.map_some, Option.some.injEq, exists_eq_left', ← any_eqAtom_iff]
      simp only [bind, Except.bind, PyVal.contains, pure, Except.pure, Except.ok.injEq]
      split <;> simp_all
  have h1 : rawCheckPresent ds (.list (ms.map .list)) = .ok [] ↔ ∀ x ∈ ds.zipIdx, ∀ kv ∈ x.1, (do
      let meas ← (PyVal.list (ms.map .list)).index x.2
      let found ← meas.contains kv.1
      pure (if found then [] else ["not a measurement: " ++ kv.1.text]) : Py (List String)) = .ok [] := by
    unfold rawCheckPresent
    simp only [← mapM_nil_iff]
    rw [py_bind_ok]
    constructor
    · rintro ⟨reports, hr, hn⟩ x hx
      rw [mapM_ok_iff] at hr
      obtain ⟨r, hr', hf⟩ := forall₂_mem hr hx
      refine ⟨r, hf, ?_⟩
      have := Except.ok.inj hn
      rw [List.flatten_eq_nil_iff] at this
      exact this _ (List.mem_map.mpr ⟨r, hr', rfl⟩)
    · intro h
      obtain ⟨reports, hr⟩ := mapM_exists (xs := ds.zipIdx) (fun x hx => ⟨_, (h x hx).choose_spec.1⟩)
      refine ⟨reports, hr, ?_⟩
      congr 1
      rw [List.flatten_eq_nil_iff]
      intro l hl
      rw [List.mem_map] at hl
      obtain ⟨r, hr', rfl⟩ := hl
      rw [mapM_ok_iff] at hr
      obtain ⟨x, hx, hf⟩ := forall₂_mem_right hr hr'
      obtain ⟨rs, h1, h2⟩ := h x hx
      rw [h1] at hf
      rw [← Except.ok.inj hf, h2]
  rw [h1]
  simp only [hone]
  constructor
  · intro h t d hd kv hk
    exact h (d, t) (List.mem_zipIdx_iff_getElem?.mpr hd) kv hk
  · intro h x hx kv hk
    exact h x.2 x.1 (List.mem_zipIdx_iff_getElem?.mp hx) kv hk

theorem rawCheckNotZero_nil_iff (ds : List (List (Atom × PyVal))) :
    rawCheckNotZero ds = [] ↔ Spec.NotZero (.list (ds.map .dict)) := by
  unfold rawCheckNotZero Spec.NotZero
  simp only [List.flatMap_eq_nil_iff, PyVal.list.injEq]
  constructor
  · rintro h _ rfl d hd kv hk hz
    rw [List.mem_map] at hd
    obtain ⟨d', hd', e⟩ := hd
    cases e
    have := h d hd' kv hk
    rw [if_pos ((isZero_iff _).mpr hz)] at this
    cases this
  · intro h d hd kv hk
    rw [if_neg]
    rw [isZero_iff]
    exact h _ rfl d (List.mem_map.mpr ⟨d, hd, rfl⟩) kv hk

theorem rawCheckNormalizations_nil_iff {s : PyVal} {ms : List (List PyVal)} (hm : Spec.Has s "measurements" (.list (ms.map .list))) :
    rawCheckNormalizations s = .ok [] ↔ Spec.Optional s "normalizations" (fun norm => Spec.IsPyDict norm ∧
      Spec.Optional norm "loadings" (fun v => Spec.Normalizations ms v ∧ Spec.NotZero v) ∧
      Spec.Optional norm "intercepts" (Spec.Normalizations ms)) := by
  have hdef0 : Spec.Normalizations ms (.list []) := ⟨[], rfl, fun t d hd => by simp at hd⟩
  have hdef1 : Spec.NotZero (.list []) := by
    intro ds e d hd
    cases e; cases hd
  obtain ⟨norm, hnorm⟩ := get_exists (has_isPyDict hm) "normalizations" (.dict [])
  rw [get_property ?_ hnorm]
  swap
  · refine ⟨⟨[], rfl⟩, ?_, ?_⟩
    · intro v hv; rw [has_dict] at hv; simp [lookupKey] at hv
    · intro v hv; rw [has_dict] at hv; simp [lookupKey] at hv
  unfold rawCheckNormalizations
  rw [hnorm]
  have hmi := (getItem_ok_iff _ _ _).mpr hm
  by_cases hnd : Spec.IsPyDict norm
  swap
  · constructor
    · intro h
      rw [py_bind_ok] at h
      obtain ⟨_, h1, h⟩ := h
      cases h1
      rw [py_bind_ok] at h
      obtain ⟨_, h1, h⟩ := h
      rw [get_ok_iff] at h1
      exact absurd h1.1 hnd
    · exact fun h => absurd h.1 hnd
  obtain ⟨lo, hlo⟩ := get_exists hnd "loadings" (.list [])
  obtain ⟨ic, hic⟩ := get_exists hnd "intercepts" (.list [])
  rw [get_property (P := fun v => Spec.Normalizations ms v ∧ Spec.NotZero v) ⟨hdef0, hdef1⟩ hlo, get_property hdef0 hic]
  simp only [hnd, true_and]
  simp only [hlo, hic, hmi, bind, Except.bind, pure, Except.pure]
  have key : ∀ v : PyVal, Spec.Normalizations ms v ↔ ∃ ds, v.normDicts = some ds ∧ rawCheckPresent ds (.list (ms.map .list)) = .ok [] := by
    intro v
    simp only [normDicts_iff, rawCheckPresent_nil_iff]
    exact Iff.rfl
  rw [key, key]
  cases h1 : lo.normDicts with
  | none =>
    cases h2 : ic.normDicts with
    | none => simp
    | some d2 =>
      cases h4 : rawCheckPresent d2 (.list (ms.map .list)) <;> simp [h4]
  | some d1 =>
    have hz : Spec.NotZero lo ↔ rawCheckNotZero d1 = [] := by
      rw [rawCheckNotZero_nil_iff, ← (normDicts_iff _ _).mp h1]
    rw [hz]
    cases h3 : rawCheckPresent d1 (.list (ms.map .list)) with
    | error e => simp [h3]
    | ok r =>
      cases h2 : ic.normDicts with
      | none => simp [h3]
      | some d2 =>
        cases h4 : rawCheckPresent d2 (.list (ms.map .list)) <;> simp [h3, h4, and_assoc]

theorem rawAnchoring_none {m : PyVal} (hm : Spec.IsPyDict m) (hn : ∀ v, ¬ Spec.Has m "anchoring" v) :
    ∃ a, rawAnchoring m = .ok a ∧ rawCheckAnchoring a = [] := by
  obtain ⟨kvs, rfl⟩ := hm
  simp only [has_dict] at hn
  unfold rawAnchoring
  cases hl : lookupKey kvs (.str "anchoring") with
  | some v => exact absurd hl (hn v)
  | none =>
    refine ⟨_, by simp only [hl]; rfl, ?_⟩
    rfl

theorem rawFlag_iff (kvs : List (Atom × PyVal)) (key : String) :
    Spec.Optional (.dict kvs) key Spec.IsBool ↔ ((lookupKey kvs (.str key)).getD (.atom (.bool false))).isBool = true := by
  rw [get_property (P := Spec.IsBool) (d := .atom (.bool false)) (Or.inr rfl) (rfl : (PyVal.dict kvs).get key (.atom (.bool false)) = .ok _), isBool_iff]

theorem rawAnchoring_dict {m : PyVal} {kvs : List (Atom × PyVal)} (h : Spec.Has m "anchoring" (.dict kvs)) :
    (∃ a, rawAnchoring m = .ok a ∧ rawCheckAnchoring a = []) ↔ Spec.AnchoringOk (.dict kvs) := by
  obtain ⟨ms, rfl⟩ := has_isPyDict h
  rw [has_dict] at h
  have ho : Spec.Optional (.dict kvs) "outcomes" (fun o => ∃ kvs, o = .dict kvs ∧ ∀ kv ∈ kvs, Spec.IsName kv.2) ↔
      ∃ os, (lookupKey kvs (.str "outcomes")).getD (.dict []) = .dict os ∧ ∀ kv ∈ os, Spec.IsName kv.2 :=
    get_property (P := fun o => ∃ kvs, o = .dict kvs ∧ ∀ kv ∈ kvs, Spec.IsName kv.2) (d := .dict []) ⟨[], rfl, fun kv hk => by cases hk⟩ rfl
  have hok : Spec.AnchoringOk (.dict kvs) ↔ (Spec.Optional (.dict kvs) "outcomes" (fun o => ∃ kvs, o = .dict kvs ∧ ∀ kv ∈ kvs, Spec.IsName kv.2) ∧
      Spec.Optional (.dict kvs) "free_controls" Spec.IsBool ∧ Spec.Optional (.dict kvs) "free_constant" Spec.IsBool ∧
      Spec.Optional (.dict kvs) "free_loadings" Spec.IsBool) :=
    ⟨fun h => ⟨h.1, h.2, h.3, h.4⟩, fun h => ⟨h.1, h.2.1, h.2.2.1, h.2.2.2⟩⟩
  rw [hok, ho, rawFlag_iff, rawFlag_iff, rawFlag_iff]
  unfold rawAnchoring rawCheckAnchoring
  simp only [h, PyVal.pairs, bind, Except.bind]
  generalize (lookupKey kvs (.str "outcomes")).getD (.dict []) = o
  generalize (lookupKey kvs (.str "free_controls")).getD (.atom (.bool false)) = b1
  generalize (lookupKey kvs (.str "free_constant")).getD (.atom (.bool false)) = b2
  generalize (lookupKey kvs (.str "free_loadings")).getD (.atom (.bool false)) = b3
  have hnames : ∀ os : List (Atom × PyVal), (os.flatMap (fun kv => if kv.2.isName then [] else ["outcomes variables"])) = [] ↔ ∀ kv ∈ os, Spec.IsName kv.2 := by
    intro os
    rw [List.flatMap_eq_nil_iff]
    simp only [ite_eq_left_iff, List.cons_ne_nil, imp_false, not_not, isName_iff]
  constructor
  · rintro ⟨a, h1, h2⟩
    cases hl : o.toList with
    | error e => rw [hl] at h1; cases h1
    | ok _ =>
      rw [hl] at h1
      cases h1
      simp only [List.append_eq_nil_iff, ite_eq_left_iff, List.cons_ne_nil, imp_false, not_not] at h2
      obtain ⟨⟨⟨h2, h3⟩, h4⟩, h5⟩ := h2
      refine ⟨?_, h3, h4, h5⟩
      cases o with
      | dict os => exact ⟨os, rfl, (hnames os).mp h2⟩
      | _ => cases h2
  · rintro ⟨⟨os, rfl, h2⟩, h3, h4, h5⟩
    refine ⟨_, rfl, ?_⟩
    simp only [List.append_eq_nil_iff, ite_eq_left_iff, List.cons_ne_nil, imp_false, not_not]
    exact ⟨⟨⟨(hnames os).mpr h2, h3⟩, h4⟩, h5⟩

/-! ### The complete check -/

theorem rawProcess_ok_iff (odd : PyVal → Nat → Py (List String)) (m : PyVal) (l : RawLabels) :
    rawProcess odd m = .ok l ↔ ∃ d a, rawDimensions m = .ok d ∧ rawLabels m d = .ok l ∧ rawAnchoring m = .ok a ∧ rawCheckModel odd m l d a = .ok () := by
  unfold rawProcess
  constructor
  · intro h
    obtain ⟨d, h1, h⟩ := py_bind_ok.mp h
    obtain ⟨l', h2, h⟩ := py_bind_ok.mp h
    obtain ⟨a, h3, h⟩ := py_bind_ok.mp h
    obtain ⟨_, h4, h⟩ := py_bind_ok.mp h
    cases h
    exact ⟨d, a, h1, h2, h3, h4⟩
  · rintro ⟨d, a, h1, h2, h3, h4⟩
    exact py_bind_ok.mpr ⟨d, h1, py_bind_ok.mpr ⟨l, h2, py_bind_ok.mpr ⟨a, h3, py_bind_ok.mpr ⟨(), h4, rfl⟩⟩⟩⟩

theorem rawDimensions_ok_iff (m : PyVal) (n : Nat) :
    (∃ d, rawDimensions m = .ok d ∧ d.nPeriods = n) ↔ ∃ fs lens, Spec.Has m "factors" (.dict fs) ∧
      List.Forall₂ (fun (kv : Atom × PyVal) (k : Nat) => ∃ v, Spec.Has kv.2 "measurements" v ∧ v.len = .ok k) fs lens ∧ pyMax lens = .ok n ∧
      Spec.Optional m "observed_factors" Spec.HasElements ∧ Spec.Optional m "controls" Spec.HasElements ∧
      ∃ kvs, Spec.Has m "estimation_options" (.dict kvs) := by
  have hd : Spec.HasElements (.list []) := Or.inr (Or.inr (Or.inl ⟨_, rfl⟩))
  unfold rawDimensions
  constructor
  · rintro ⟨d, h, hn⟩
    obtain ⟨f, h1, h⟩ := py_bind_ok.mp h
    obtain ⟨fs, h2, h⟩ := py_bind_ok.mp h
    obtain ⟨lens, h3, h⟩ := py_bind_ok.mp h
    obtain ⟨ob, h4, h⟩ := py_bind_ok.mp h
    obtain ⟨k1, h5, h⟩ := py_bind_ok.mp h
    obtain ⟨n', h6, h⟩ := py_bind_ok.mp h
    obtain ⟨co, h7, h⟩ := py_bind_ok.mp h
    obtain ⟨k2, h8, h⟩ := py_bind_ok.mp h
    obtain ⟨opt, h9, h⟩ := py_bind_ok.mp h
    obtain ⟨nm, h10, h⟩ := py_bind_ok.mp h
    cases h
    dsimp only at hn
    subst hn
    rw [items_ok_iff] at h2
    subst h2
    refine ⟨fs, lens, (getItem_ok_iff _ _ _).mp h1, ?_, h6, (get_property hd h4).mpr ((len_ok_iff _).mp ⟨_, h5⟩),
      (get_property hd h7).mpr ((len_ok_iff _).mp ⟨_, h8⟩), ?_⟩
    · rw [mapM_ok_iff] at h3
      refine h3.imp ?_
      intro kv k hk
      obtain ⟨v, hv, hk⟩ := py_bind_ok.mp hk
      exact ⟨v, (getItem_ok_iff _ _ _).mp hv, hk⟩
    · rw [get_ok_iff] at h10
      obtain ⟨⟨kvs, rfl⟩, _⟩ := h10
      exact ⟨kvs, (getItem_ok_iff _ _ _).mp h9⟩
  · rintro ⟨fs, lens, h1, h3, h6, h4, h7, kvs, h9⟩
    obtain ⟨ob, ho⟩ := get_exists (has_isPyDict h1) "observed_factors" (.list [])
    obtain ⟨co, hc⟩ := get_exists (has_isPyDict h1) "controls" (.list [])
    obtain ⟨k1, h5⟩ := (len_ok_iff _).mpr ((get_property hd ho).mp h4)
    obtain ⟨k2, h8⟩ := (len_ok_iff _).mpr ((get_property hd hc).mp h7)
    obtain ⟨nm, h10⟩ := get_exists (m := .dict kvs) ⟨kvs, rfl⟩ "n_mixtures" (.atom (.int 1))
    refine ⟨{ nPeriods := n, nControls := k2 + 1, nMixtures := nm }, ?_, rfl⟩
    refine py_bind_ok.mpr ⟨_, (getItem_ok_iff _ _ _).mpr h1, py_bind_ok.mpr ⟨fs, rfl, py_bind_ok.mpr ⟨lens, ?_, py_bind_ok.mpr ⟨ob, ho, py_bind_ok.mpr ⟨k1, h5,
      py_bind_ok.mpr ⟨n, h6, py_bind_ok.mpr ⟨co, hc, py_bind_ok.mpr ⟨k2, h8, py_bind_ok.mpr ⟨_, (getItem_ok_iff _ _ _).mpr h9, py_bind_ok.mpr ⟨nm, h10, rfl⟩⟩⟩⟩⟩⟩⟩⟩⟩⟩
    rw [mapM_ok_iff]
    refine h3.imp ?_
    rintro kv k ⟨v, hv, hk⟩
    exact py_bind_ok.mpr ⟨v, (getItem_ok_iff _ _ _).mpr hv, hk⟩

/-- The stagemap that is used. -/
def stagemapValue (m : PyVal) (n : Nat) (v : PyVal) : Prop :=
  m.get "stagemap" (.list ((List.range (n - 1)).map (fun (i : Nat) => .atom (.int i)))) = .ok v

theorem rawLabels_ok {m : PyVal} {d : RawDimensions} {fs : List (Atom × PyVal)} (h1 : Spec.Has m "factors" (.dict fs))
    (h2 : Spec.Optional m "observed_factors" Spec.HasElements) (h3 : Spec.Optional m "controls" Spec.HasElements) :
    ∃ l, rawLabels m d = .ok l := by
  have hd : Spec.HasElements (.list []) := Or.inr (Or.inr (Or.inl ⟨_, rfl⟩))
  obtain ⟨ob, ho⟩ := get_exists (has_isPyDict h1) "observed_factors" (.list [])
  obtain ⟨co, hc⟩ := get_exists (has_isPyDict h1) "controls" (.list [])
  obtain ⟨k1, h5⟩ := (toList_ok_iff _).mpr ((get_property hd ho).mp h2)
  obtain ⟨k2, h8⟩ := (toList_ok_iff _).mpr ((get_property hd hc).mp h3)
  obtain ⟨sm, hs⟩ := get_exists (has_isPyDict h1) "stagemap" (.list ((List.range (d.nPeriods - 1)).map (fun (i : Nat) => .atom (.int i))))
  exact ⟨_, py_bind_ok.mpr ⟨sm, hs, py_bind_ok.mpr ⟨_, (getItem_ok_iff _ _ _).mpr h1, py_bind_ok.mpr ⟨_, rfl, py_bind_ok.mpr ⟨ob, ho, py_bind_ok.mpr ⟨k1, h5,
    py_bind_ok.mpr ⟨co, hc, py_bind_ok.mpr ⟨k2, h8, rfl⟩⟩⟩⟩⟩⟩⟩⟩

theorem rawLabels_stagemap {m : PyVal} {d : RawDimensions} {l : RawLabels} (h : rawLabels m d = .ok l) :
    m.get "stagemap" (.list ((List.range (d.nPeriods - 1)).map (fun (i : Nat) => .atom (.int i)))) = .ok l.stagemap := by
  unfold rawLabels at h
  obtain ⟨sm, hs, h⟩ := py_bind_ok.mp h
  obtain ⟨_, _, h⟩ := py_bind_ok.mp h
  obtain ⟨_, _, h⟩ := py_bind_ok.mp h
  obtain ⟨_, _, h⟩ := py_bind_ok.mp h
  obtain ⟨_, _, h⟩ := py_bind_ok.mp h
  obtain ⟨_, _, h⟩ := py_bind_ok.mp h
  obtain ⟨_, _, h⟩ := py_bind_ok.mp h
  cases h
  exact hs

theorem rawCheckModel_ok_iff {odd : PyVal → Nat → Py (List String)} {m : PyVal} {l : RawLabels} {d : RawDimensions} {a : RawAnchoring} {fs : List (Atom × PyVal)}
    (hf : Spec.Has m "factors" (.dict fs)) :
    rawCheckModel odd m l d a = .ok () ↔ rawStagemap odd l.stagemap d.nPeriods = .ok [] ∧ rawCheckAnchoring a = [] ∧ ∀ kv ∈ fs, Spec.FactorOk kv.2 := by
  unfold rawCheckModel
  constructor
  · intro h
    obtain ⟨r1, h1, h⟩ := py_bind_ok.mp h
    obtain ⟨f, h2, h⟩ := py_bind_ok.mp h
    obtain ⟨fs', h3, h⟩ := py_bind_ok.mp h
    obtain ⟨r3, h4, h⟩ := py_bind_ok.mp h
    obtain ⟨r4, h5, hend⟩ := py_bind_ok.mp h
    rw [items_ok_iff] at h3
    subst h3
    have e := has_unique hf ((getItem_ok_iff _ _ _).mp h2)
    cases e
    split at hend
    · cases hend
    rename_i hr
    rw [not_not, List.append_eq_nil_iff, List.append_eq_nil_iff, List.append_eq_nil_iff] at hr
    obtain ⟨⟨⟨e1, e2⟩, e3⟩, e4⟩ := hr
    subst e1
    refine ⟨h1, e2, ?_⟩
    have hm := (mapM_nil_iff _ _).mp ⟨r3, h4, e3⟩
    have hn := (mapM_nil_iff _ _).mp ⟨r4, h5, e4⟩
    intro kv hk
    obtain ⟨v, hv, h6⟩ := py_bind_ok.mp (hm kv hk)
    obtain ⟨ms, rfl, hnames⟩ := (rawCheckMeasurements_nil_iff v).mp (Except.ok.inj h6)
    have hv := (getItem_ok_iff _ _ _).mp hv
    exact ⟨ms, hv, hnames, (rawCheckNormalizations_nil_iff hv).mp (hn kv hk)⟩
  · rintro ⟨h1, h2, h3⟩
    have hm : ∀ kv ∈ fs, (do
        let measurements ← kv.2.getItem "measurements"
        pure (rawCheckMeasurements measurements) : Py (List String)) = .ok [] := by
      intro kv hk
      obtain ⟨ms, hv, hnames, _⟩ := (h3 kv hk).ok
      refine py_bind_ok.mpr ⟨_, (getItem_ok_iff _ _ _).mpr hv, ?_⟩
      rw [(rawCheckMeasurements_nil_iff _).mpr ⟨ms, rfl, hnames⟩]
      rfl
    have hn : ∀ kv ∈ fs, rawCheckNormalizations kv.2 = .ok [] := by
      intro kv hk
      obtain ⟨ms, hv, _, hno⟩ := (h3 kv hk).ok
      exact (rawCheckNormalizations_nil_iff hv).mpr hno
    obtain ⟨r3, h4, e3⟩ := (mapM_nil_iff _ _).mpr hm
    obtain ⟨r4, h5, e4⟩ := (mapM_nil_iff _ _).mpr hn
    refine py_bind_ok.mpr ⟨[], h1, py_bind_ok.mpr ⟨_, (getItem_ok_iff _ _ _).mpr hf, py_bind_ok.mpr ⟨fs, rfl, py_bind_ok.mpr ⟨r3, h4, py_bind_ok.mpr ⟨r4, h5, ?_⟩⟩⟩⟩⟩
    rw [h2, e3, e4]
    rfl

theorem pyMax_iff (lens : List Nat) (n : Nat) : pyMax lens = .ok n ↔ n ∈ lens ∧ ∀ k ∈ lens, k ≤ n := by
  constructor
  · exact pyMax_ok
  · rintro ⟨h1, h2⟩
    cases lens with
    | nil => cases h1
    | cons a as =>
      have hm := pyMax_ok (xs := a :: as) (n := as.foldl max a) rfl
      have : as.foldl max a = n := le_antisymm (h2 _ hm.1) (hm.2 _ h1)
      rw [← this]
      rfl

theorem maxPeriods_iff {fs : List (Atom × PyVal)} {lens : List Nat} {n : Nat} (hok : ∀ kv ∈ fs, Spec.FactorOk kv.2)
    (h : List.Forall₂ (fun (kv : Atom × PyVal) (k : Nat) => ∃ v, Spec.Has kv.2 "measurements" v ∧ v.len = .ok k) fs lens) :
    pyMax lens = .ok n ↔ Spec.MaxPeriods fs n := by
  rw [pyMax_iff]
  unfold Spec.MaxPeriods
  constructor
  · rintro ⟨h1, h2⟩
    constructor
    · obtain ⟨kv, hk, v, hv, hl⟩ := forall₂_mem_right h h1
      obtain ⟨ms, hms, _⟩ := (hok kv hk).ok
      have e := has_unique hv hms
      subst e
      exact ⟨kv, hk, _, hms, by simpa [PyVal.len] using hl⟩
    · intro kv hk ms hms
      obtain ⟨k, hk', v, hv, hl⟩ := forall₂_mem h hk
      have e := has_unique hv hms
      subst e
      have : ms.length = k := by simpa [PyVal.len] using hl
      rw [this]
      exact h2 k hk'
  · rintro ⟨⟨kv, hk, ms, hms, rfl⟩, h2⟩
    constructor
    · obtain ⟨k, hk', v, hv, hl⟩ := forall₂_mem h hk
      have e := has_unique hv hms
      subst e
      have : ms.length = k := by simpa [PyVal.len] using hl
      rw [this]
      exact hk'
    · intro k hk'
      obtain ⟨kv, hk, v, hv, hl⟩ := forall₂_mem_right h hk'
      obtain ⟨ms', hms', _⟩ := (hok kv hk).ok
      have e := has_unique hv hms'
      subst e
      have : (ms'.map PyVal.list).length = k := by simpa [PyVal.len] using hl
      rw [← this]
      exact h2 kv hk _ hms'

theorem default_numbers (n : Nat) : (PyVal.list ((List.range n).map (fun (i : Nat) => .atom (.int i)))).numbers
    = some (((List.range n).map Int.ofNat).map (fun (z : Int) => (z : Rat))) := by
  rw [PyVal.numbers, option_mapM_iff, List.map_map, List.forall₂_map_left_iff, List.forall₂_map_right_iff]
  apply List.forall₂_same.mpr
  intro i _
  rfl

end Skill
