import Verif.Props.OwnData
import Verif.Props.FilteredStates
/- C113: the filtered states of an individual depend only on the data of that individual. -/
namespace Skill
open Spec

/-- Each row of individual i in one DataFrame of states has a counterpart of individual i' in the other one: a row of the same period with the same values, except for the id. -/
def SameStates (df df' : StatesFrame ℝ) (i i' : ℕ) : Prop :=
  ∀ t cells, (t, cells) ∈ df.rows → cells "id" = i → ∃ cells', (t, cells') ∈ df'.rows ∧ cells' "id" = i' ∧ ∀ c, c ≠ "id" → cells' c = cells c

theorem filtered_own {nObs nObs' nMix n : ℕ} {outs : List (StepOut nObs nMix n)} {outs' : List (StepOut nObs' nMix n)} {u : List URow} {rows : List (FilteredRow n)} {rows' : List (FilteredRow n)}
    (h : createFilteredStates outs u = .ok rows) (h' : createFilteredStates outs' u = .ok rows') {i : Fin nObs} {i' : Fin nObs'}
    (hs : outs.map (StepOut.select (fun _ : Fin 1 => i)) = outs'.map (StepOut.select (fun _ : Fin 1 => i'))) (factors : List String) :
    SameStates (filteredFrame factors rows) (filteredFrame factors rows') i i' := by
  unfold createFilteredStates at h h'
  simp only [py_bind_ok] at h h'
  obtain ⟨keep, hkeep, blocks, hb, h⟩ := h
  obtain ⟨keep', hkeep', blocks', hb', h'⟩ := h'
  obtain rfl := Except.ok.inj (hkeep.symm.trans hkeep')
  have hrows : rows = blocks.flatten := by
    by_cases e : blocks = []
    · rw [if_pos e] at h; cases h
    · rw [if_neg e] at h; exact (Except.ok.inj h).symm
  have hrows' : rows' = blocks'.flatten := by
    by_cases e : blocks' = []
    · rw [if_pos e] at h'; cases h'
    · rw [if_neg e] at h'; exact (Except.ok.inj h').symm
  subst hrows hrows'
  have hb := (mapM_ok_iff _ _ _).mp hb
  have hb' := (mapM_ok_iff _ _ _).mp hb'
  intro t cells hmem hid
  unfold filteredFrame at hmem ⊢
  obtain ⟨row, hrow, he⟩ := List.mem_map.mp hmem
  obtain ⟨rfl, rfl⟩ := Prod.mk.inj he
  dsimp only at hid
  rw [if_pos rfl] at hid
  obtain ⟨block, hblock, hrow⟩ := List.mem_flatten.mp hrow
  obtain ⟨k, hk⟩ := List.getElem?_of_mem hblock
  obtain ⟨x, hx, hxb⟩ := forall₂_getElem?_right hb hk
  simp only [py_bind_ok, py_pure_ok, pyIndex_ok] at hxb
  obtain ⟨out, hout, rfl⟩ := hxb
  obtain ⟨j, _, rfl⟩ := List.mem_map.mp hrow
  have hji : j = i := Fin.ext (by exact_mod_cast hid)
  subst hji
  have hsel := congrArg (fun l => l[x.1]?) hs
  simp only [List.getElem?_map, hout, Option.map_some] at hsel
  cases hout' : outs'[x.1]? with
  | none => rw [hout'] at hsel; cases hsel
  | some out' =>
    rw [hout', Option.map_some] at hsel
    have hsel := Option.some.inj hsel
    have e1 : out.states j = out'.states i' := congrFun (congrArg StepOut.states hsel) 0
    have e2 : out.logWeights j = out'.logWeights i' := congrFun (congrArg StepOut.logWeights hsel) 0
    have e3 : aggregate out'.states out'.logWeights i' = aggregate out.states out.logWeights j := by
      funext f
      unfold aggregate
      rw [e1, e2]
    obtain ⟨b', hb1, hb2⟩ := forall₂_mem hb' (List.mem_of_getElem? hx)
    simp only [py_bind_ok, py_pure_ok, pyIndex_ok] at hb2
    obtain ⟨out2, hout2, rfl⟩ := hb2
    obtain rfl := Option.some.inj (hout'.symm.trans hout2)
    refine ⟨_, List.mem_map.mpr ⟨_, List.mem_flatten.mpr ⟨_, hb1, List.mem_map.mpr ⟨i', List.mem_finRange _, rfl⟩⟩, rfl⟩, ?_, ?_⟩
    · rw [if_pos rfl]
    · intro c hc
      simp only [if_neg hc, e3]

theorem anchor_own {df df' out out' : StatesFrame ℝ} {factors : List String} (hf : "id" ∉ factors) {scaling constants : List (List ℝ)} (h : anchorStates df factors scaling constants = .ok out)
    (h' : anchorStates df' factors scaling constants = .ok out') {i i' : ℕ} (hs : SameStates df df' i i') : SameStates out out' i i' := by
  unfold anchorStates at h h'
  simp only [py_bind_ok] at h h'
  obtain ⟨sel, hsel, h⟩ := h
  obtain ⟨sel', hsel', h'⟩ := h'
  split at h
  case isFalse => cases h
  split at h'
  case isFalse => cases h'
  simp only [py_bind_ok, py_pure_ok] at h h'
  obtain ⟨rows, hrows, rfl⟩ := h
  obtain ⟨rows', hrows', rfl⟩ := h'
  have hsel := (mapM_ok_iff _ _ _).mp hsel
  have hsel' := (mapM_ok_iff _ _ _).mp hsel'
  have hrows := (mapM_ok_iff _ _ _).mp hrows
  have hrows' := (mapM_ok_iff _ _ _).mp hrows'
  intro t cells hmem hid
  obtain ⟨k, hk⟩ := List.getElem?_of_mem hmem
  obtain ⟨⟨r, s, c⟩, hx, hxb⟩ := forall₂_getElem?_right hrows hk
  simp only [py_bind_ok, py_pure_ok, Prod.mk.injEq] at hxb
  obtain ⟨new, hnew, rfl, rfl⟩ := hxb
  obtain ⟨r0, hr0, hr0b⟩ := forall₂_getElem?_right hsel hx
  simp only [py_bind_ok, py_pure_ok, Prod.mk.injEq] at hr0b
  obtain ⟨s0, hs0, c0, hc0, rfl, rfl, rfl⟩ := hr0b
  have hnewf := (mapM_ok_iff _ _ _).mp hnew
  have hfst : new.map Prod.fst = factors := by
    have e : new.map Prod.fst = factors.zipIdx.map Prod.fst := by
      clear hid hmem hk hnew
      generalize factors.zipIdx = zs at hnewf
      induction hnewf with
      | nil => rfl
      | cons hab _ ih =>
        simp only [py_bind_ok, py_pure_ok] at hab
        obtain ⟨_, _, _, _, rfl⟩ := hab
        rw [List.map_cons, List.map_cons, ih]
    rw [e, List.zipIdx_map_fst]
  have hnid : Dict.get? new "id" = none := dict_get?_none (by rw [hfst]; exact hf)
  dsimp only at hid
  rw [hnid, Option.getD_none] at hid
  obtain ⟨cells', hm', hid', hc'⟩ := hs r0.1 r0.2 (List.mem_of_getElem? hr0) hid
  obtain ⟨y, hy1, hy2⟩ := forall₂_mem hsel' hm'
  simp only [py_bind_ok, py_pure_ok] at hy2
  obtain ⟨s1, hs1, c1, hc1, rfl⟩ := hy2
  obtain rfl := Except.ok.inj (hs0.symm.trans hs1)
  obtain rfl := Except.ok.inj (hc0.symm.trans hc1)
  obtain ⟨z, hz1, hz2⟩ := forall₂_mem hrows' hy1
  simp only [py_bind_ok, py_pure_ok] at hz2
  obtain ⟨new', hnew', rfl⟩ := hz2
  have : new = new' := by
    refine Except.ok.inj (Eq.trans ?_ hnew')
    have hne : ∀ z ∈ factors.zipIdx, z.1 ≠ "id" := by
      intro z hz e
      have := List.mem_map_of_mem (f := Prod.fst) hz
      rw [List.zipIdx_map_fst, e] at this
      exact hf this
    refine ((mapM_ok_iff _ _ _).mpr (((List.forall₂_and_left _ _).mpr ⟨hne, hnewf⟩).imp (fun z y hzy => ?_))).symm
    rw [← hzy.2]
    simp only [hc' _ hzy.1]
  subst this
  refine ⟨_, hz1, ?_, ?_⟩
  · simp only [hnid, Option.getD_none, hid']
  · intro c hc
    simp only [hc' c hc]

/-- **C113**: two datasets may have different individuals, and different numbers of individuals. If the i-th individual of the first dataset has the same data as the i'-th individual of the second one, then the two have
the same filtered states in all periods, both anchored and not anchored. -/
theorem C113_filtered_states {m : ModelDict ℝ} (hd : DictKeys m) (hclash : NoNameClash m) (hid : ¬ IsLatent m "id") {df df' : LongData ℝ} (hi : IndexOk df) (hi' : IndexOk df') (hu : NoUnusedPeriods df) (hu' : NoUnusedPeriods df')
    {ids pers ids' pers' : List Int} (hids : IdsOf df ids) (hpers : PeriodsOf df pers) (hids' : IdsOf df' ids') (hpers' : PeriodsOf df' pers') {qr : QR} {custom : String → CustomFn} {nan : ℝ}
    {params : List (Loc × ℝ)} {out out' : FilteredStates} (h : getFilteredStates qr custom nan m df params = .ok out) (h' : getFilteredStates qr custom nan m df' params = .ok out') {i i' : ℕ}
    (hs : SameHistory m df ids pers i df' ids' pers' i') : SameStates out.unanchored.states out'.unanchored.states i i' ∧ SameStates out.anchored.states out'.anchored.states i i' := by
  unfold getFilteredStates at h h'
  simp only [py_bind_ok, py_pure_ok] at h h'
  obtain ⟨inputs, hin, par, hpar, d, hdeb, pm, hpm, anc, hanc, rfl⟩ := h
  obtain ⟨inputs', hin', par', hpar', d', hdeb', pm', hpm', anc', hanc', rfl⟩ := h'
  obtain rfl := Except.ok.inj (hpm.symm.trans hpm')
  have hpr : inputs'.template = inputs.template ∧ inputs'.model = inputs.model ∧ inputs.model = pm := by
    unfold getMaximizationInputs at hin hin'
    simp only [py_bind_ok, py_pure_ok] at hin hin'
    obtain ⟨pm1, hpm1, _, _, _, _, _, _, rfl⟩ := hin
    obtain ⟨pm2, hpm2, _, _, _, _, _, _, rfl⟩ := hin'
    obtain rfl := Except.ok.inj (hpm.symm.trans hpm1)
    obtain rfl := Except.ok.inj (hpm.symm.trans hpm2)
    exact ⟨rfl, rfl, rfl⟩
  rw [hpr.1] at hpar'
  obtain rfl := Except.ok.inj (hpar.symm.trans hpar')
  unfold MaximizationInputs.debugLoglike at hdeb hdeb'
  rw [hpr.2.1, hpr.2.2] at hdeb'
  rw [hpr.2.2] at hdeb
  obtain ⟨nMix, n, r, r', _, h1, h2, _, _, _, _, _, h5⟩ := evaluate_own hd hclash hi hi' hu hu' hids hpers hids' hpers' hin hin' hdeb hdeb'
  obtain ⟨_, hr1, hf1, _⟩ := processDebugData_ok h1
  obtain ⟨_, hr2, hf2, _⟩ := processDebugData_ok h2
  have hsel := (h5 ⟨i, hs.1⟩ ⟨i', hs.2.1⟩ hs).2
  have key := filtered_own hr1 hr2 hsel pm.labels.latentFactors
  rw [← hf1, ← hf2] at key
  refine ⟨key, ?_⟩
  unfold anchorStatesDf at hanc hanc'
  simp only [py_bind_ok] at hanc hanc'
  obtain ⟨pm1, q1, vals, q2, parsed, q3, q4⟩ := hanc
  obtain ⟨pm2, q1', vals', q2', parsed', q3', q4'⟩ := hanc'
  obtain rfl := Except.ok.inj (hpm.symm.trans q1)
  obtain rfl := Except.ok.inj (hpm.symm.trans q1')
  obtain rfl := Except.ok.inj (q2.symm.trans q2')
  obtain rfl := Except.ok.inj (q3.symm.trans q3')
  refine anchor_own ?_ q4 q4' key
  rw [(labels_of_ok hpm).1]
  intro hmem
  obtain ⟨fs, hfs, e⟩ := List.mem_map.mp hmem
  exact hid ⟨fs.2, by rw [← e]; exact hfs⟩

end Skill
