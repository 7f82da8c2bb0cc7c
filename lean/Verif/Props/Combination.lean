import Verif.Lemmas.CombinationData
import Verif.Props.NoLookAhead
import Verif.Props.HigherMeasurement
/- C143: in linear models filtered states are affine functions of the data. -/
namespace Skill
open Matrix Spec

/-- States and residuals of an individual whose data are a combination of the data of two others. -/
theorem evaluate_combines {γ : Type} {post : (nObs nMix n : ℕ) → LoglikeResult nObs nMix n → Py γ} {qr : QR} {m : ModelDict ℝ} {pm : Processed ℝ} (hpm : processModel m = .ok pm) {nM : ℕ} (hm : LinearModel m nM)
    (hg : GoodNames m) (hkappa : ∀ o x, m.estimationOptions = some o → o.sigmaPointsScale = some x → 0 ≤ x) {a : ℝ} {T : ℕ} {p₁ p₂ p₃ : Person} (hs : CombinesUpTo m a T p₁ p₂ p₃)
    {inputs₁ inputs₂ inputs₃ : MaximizationInputs} (hin₁ : getMaximizationInputs m p₁.df = .ok inputs₁) (hin₂ : getMaximizationInputs m p₂.df = .ok inputs₂) (hin₃ : getMaximizationInputs m p₃.df = .ok inputs₃)
    {custom : String → CustomFn} {nan : ℝ} {params : List (Loc × ℝ)} (hn : (params.map Prod.fst).Nodup) {out₁ out₂ out₃ : γ} (h₁ : inputs₁.evaluate post qr custom nan m params = .ok out₁)
    (h₂ : inputs₂.evaluate post qr custom nan m params = .ok out₂) (h₃ : inputs₃.evaluate post qr custom nan m params = .ok out₃) :
    ∃ (r₁ : LoglikeResult p₁.ids.length pm.dimensions.nMixtures (nLat m)) (r₂ : LoglikeResult p₂.ids.length pm.dimensions.nMixtures (nLat m)) (r₃ : LoglikeResult p₃.ids.length pm.dimensions.nMixtures (nLat m)),
      post p₁.ids.length _ _ r₁ = .ok out₁ ∧ post p₂.ids.length _ _ r₂ = .ok out₂ ∧ post p₃.ids.length _ _ r₃ = .ok out₃ ∧
      r₁.outs.length = pm.updateInfo.length ∧ r₂.outs.length = pm.updateInfo.length ∧ r₃.outs.length = pm.updateInfo.length ∧
      ∀ (k : ℕ) (row : URow), pm.updateInfo[k]? = some row → row.period ≤ T →
        ∃ o₁ o₂ o₃, r₁.outs[k]? = some o₁ ∧ r₂.outs[k]? = some o₂ ∧ r₃.outs[k]? = some o₃ ∧
          (∀ e f, o₃.states ⟨p₃.i, p₃.lt⟩ e f = a * o₁.states ⟨p₁.i, p₁.lt⟩ e f + (1 - a) * o₂.states ⟨p₂.i, p₂.lt⟩ e f) ∧
          (∀ e, Combines a (o₁.residuals ⟨p₁.i, p₁.lt⟩ e) (o₂.residuals ⟨p₂.i, p₂.lt⟩ e) (o₃.residuals ⟨p₃.i, p₃.lt⟩ e)) ∧
          (nM < 2 → ∀ e, o₁.logWeights ⟨p₁.i, p₁.lt⟩ e = o₃.logWeights ⟨p₃.i, p₃.lt⟩ e ∧ o₂.logWeights ⟨p₂.i, p₂.lt⟩ e = o₃.logWeights ⟨p₃.i, p₃.lt⟩ e) := by
  obtain ⟨hc, ho, hclash⟩ := hm.anchoring
  set val : Loc → ℝ := fun l => (params.lookup l).getD 0 with hvaldef
  have hval : ∀ l x, (l, x) ∈ params → x = val l := fun l x hx => by
    rw [hvaldef]
    dsimp only
    rw [lookup_of_mem hn hx, Option.getD_some]
  obtain ⟨pm1, nT, con₁, obs₁, data₁, r₁, hpm1, hT, hdata₁, hcon₁, hobs₁, hmeas₁, hr₁, hpost₁⟩ := evaluate_explicit hg hc ho hin₁ hn hval h₁ (length_of_controls hpm hm.periods hclash hg p₁.index p₁.used p₁.isIds p₁.isPers hin₁)
  obtain rfl := Except.ok.inj (hpm.symm.trans hpm1)
  obtain ⟨pm2, nT', con₂, obs₂, data₂, r₂, hpm2, hT', hdata₂, hcon₂, hobs₂, hmeas₂, hr₂, hpost₂⟩ := evaluate_explicit hg hc ho hin₂ hn hval h₂ (length_of_controls hpm hm.periods hclash hg p₂.index p₂.used p₂.isIds p₂.isPers hin₂)
  obtain rfl := Except.ok.inj (hpm.symm.trans hpm2)
  obtain rfl : nT = nT' := by omega
  obtain ⟨pm3, nT', con₃, obs₃, data₃, r₃, hpm3, hT', hdata₃, hcon₃, hobs₃, hmeas₃, hr₃, hpost₃⟩ := evaluate_explicit hg hc ho hin₃ hn hval h₃ (length_of_controls hpm hm.periods hclash hg p₃.index p₃.used p₃.isIds p₃.isPers hin₃)
  obtain rfl := Except.ok.inj (hpm.symm.trans hpm3)
  obtain rfl : nT = nT' := by omega
  obtain ⟨hu1, hu2, hsorted, hcols, hu5⟩ := C01_update_info_exact hpm
  obtain ⟨hM, hC, hO⟩ := data_combines hpm hg.keys hclash hs hdata₁ hdata₂ hdata₃
  obtain ⟨ho1, _⟩ := logLikelihood_ok hr₁
  obtain ⟨ho2, _⟩ := logLikelihood_ok hr₂
  obtain ⟨ho3, _⟩ := logLikelihood_ok hr₃
  have hl1 : r₁.outs.length = pm.updateInfo.length := by rw [ho1, outs_length, loopArgs_length _ _ (by simp), List.length_map]
  have hl2 : r₂.outs.length = pm.updateInfo.length := by rw [ho2, outs_length, loopArgs_length _ _ (by simp), List.length_map]
  have hl3 : r₃.outs.length = pm.updateInfo.length := by rw [ho3, outs_length, loopArgs_length _ _ (by simp), List.length_map]
  refine ⟨r₁, r₂, r₃, hpost₁, hpost₂, hpost₃, hl1, hl2, hl3, fun k row hrow hTk => ?_⟩
  have hkl := (List.getElem?_eq_some_iff.mp hrow).1
  have hsort := List.pairwise_iff_getElem.mp hsorted
  have hge : ∀ (j : ℕ) (q : URow), pm.updateInfo[j]? = some q → j ≤ k → q.period ≤ T := by
    intro j q hq hj
    obtain ⟨hjl, rfl⟩ := List.getElem?_eq_some_iff.mp hq
    refine le_trans ?_ hTk
    rcases hj.lt_or_eq with hlt | rfl
    · have := hsort j k hjl hkl hlt
      rwa [(List.getElem?_eq_some_iff.mp hrow).2] at this
    · rw [(List.getElem?_eq_some_iff.mp hrow).2]
  have hk : SigmaOptions (labelFixed custom m pm val 1 nT (fun t _ => con₁ t ⟨p₁.i, p₁.lt⟩) (fun t _ => obs₁ t ⟨p₁.i, p₁.lt⟩)) _ := sigma_label hpm hkappa custom val 1 nT _ _
  have hlin := affine_label hm hpm hg custom val 1 nT (fun t _ => con₁ t ⟨p₁.i, p₁.lt⟩) (fun t _ => obs₁ t ⟨p₁.i, p₁.lt⟩)
  have hself : ∀ x : ℝ, x = a * x + (1 - a) * x := fun x => by ring
  have key := outs_combines qr (a := a) hk hlin (fun t _ => con₂ t ⟨p₂.i, p₂.lt⟩) (fun t _ => con₃ t ⟨p₃.i, p₃.lt⟩) (fun t _ => obs₂ t ⟨p₂.i, p₂.lt⟩) (fun t _ => obs₃ t ⟨p₃.i, p₃.lt⟩) (k + 1)
    (l₁ := (loopArgs (nT + 1) (pm.updateInfo.map (labelRow m val)) (List.ofFn data₁)).map (LoopArgs.select (fun _ : Fin 1 => ⟨p₁.i, p₁.lt⟩)))
    (l₂ := (loopArgs (nT + 1) (pm.updateInfo.map (labelRow m val)) (List.ofFn data₂)).map (LoopArgs.select (fun _ : Fin 1 => ⟨p₂.i, p₂.lt⟩)))
    (l₃ := (loopArgs (nT + 1) (pm.updateInfo.map (labelRow m val)) (List.ofFn data₃)).map (LoopArgs.select (fun _ : Fin 1 => ⟨p₃.i, p₃.lt⟩)))
    (fun j hj => by
      have hjl : j < pm.updateInfo.length := by omega
      have hq : pm.updateInfo[j]? = some pm.updateInfo[j] := List.getElem?_eq_getElem hjl
      have hr0 : (pm.updateInfo.map (labelRow m val))[j]? = some (labelRow m val pm.updateInfo[j]) := by rw [List.getElem?_map, hq]; rfl
      have hd1 : (List.ofFn data₁)[j]? = some (data₁ ⟨j, hjl⟩) := by rw [List.getElem?_ofFn, dif_pos hjl]
      have hd2 : (List.ofFn data₂)[j]? = some (data₂ ⟨j, hjl⟩) := by rw [List.getElem?_ofFn, dif_pos hjl]
      have hd3 : (List.ofFn data₃)[j]? = some (data₃ ⟨j, hjl⟩) := by rw [List.getElem?_ofFn, dif_pos hjl]
      have hqT := hge j _ hq (by omega)
      have hper : IsPeriod m pm.updateInfo[j].period := isUpdate_period ((hu2 _ _).mp ⟨_, List.mem_of_getElem? hq, rfl, rfl⟩)
      have hlt : pm.updateInfo[j].period < nT + 2 := by have := (isPeriod_iff hpm _).mp hper; omega
      refine ⟨_, _, _, by rw [List.getElem?_map, loopArgs_get _ hr0 hd1]; rfl, by rw [List.getElem?_map, loopArgs_get _ hr0 hd2]; rfl, by rw [List.getElem?_map, loopArgs_get _ hr0 hd3]; rfl, ⟨rfl, rfl, fun _ => ?_⟩, ?_, ?_⟩
      · obtain ⟨w₁, w₂, w₃, e1, e2, e3, hw⟩ := hM j _ hq hqT
        have e1' := hmeas₁ ⟨j, hjl⟩ ⟨p₁.i, p₁.lt⟩
        have e2' := hmeas₂ ⟨j, hjl⟩ ⟨p₂.i, p₂.lt⟩
        have e3' := hmeas₃ ⟨j, hjl⟩ ⟨p₃.i, p₃.lt⟩
        dsimp only at e1' e2' e3'
        rw [e1] at e1'
        rw [e2] at e2'
        rw [e3] at e3'
        show Combines a (data₁ ⟨j, hjl⟩ ⟨p₁.i, p₁.lt⟩) (data₂ ⟨j, hjl⟩ ⟨p₂.i, p₂.lt⟩) (data₃ ⟨j, hjl⟩ ⟨p₃.i, p₃.lt⟩)
        rw [← Option.some.inj e1', ← Option.some.inj e2', ← Option.some.inj e3']
        exact hw
      · intro _ c
        show con₃ (jaxIndex (nT + 1) (periodIndex (nT + 1) pm.updateInfo[j].period)) _ c = a * con₁ (jaxIndex (nT + 1) (periodIndex (nT + 1) pm.updateInfo[j].period)) _ c +
          (1 - a) * con₂ (jaxIndex (nT + 1) (periodIndex (nT + 1) pm.updateInfo[j].period)) _ c
        rw [jaxIndex_period hlt]
        obtain ⟨w₁, w₂, w₃, e1, e2, e3, hw⟩ := hC _ hper hqT c c.isLt
        obtain ⟨v₁, g1, g1'⟩ := hcon₁ ⟨_, hlt⟩ ⟨p₁.i, p₁.lt⟩ c
        obtain ⟨v₂, g2, g2'⟩ := hcon₂ ⟨_, hlt⟩ ⟨p₂.i, p₂.lt⟩ c
        obtain ⟨v₃, g3, g3'⟩ := hcon₃ ⟨_, hlt⟩ ⟨p₃.i, p₃.lt⟩ c
        obtain rfl := Option.some.inj (e1.symm.trans g1)
        obtain rfl := Option.some.inj (e2.symm.trans g2)
        obtain rfl := Option.some.inj (e3.symm.trans g3)
        rw [g1', g2', g3']
        exact combines_getD hw nan
      · intro _ c
        show obs₃ (jaxIndex (nT + 1) (periodIndex (nT + 1) pm.updateInfo[j].period)) _ c = a * obs₁ (jaxIndex (nT + 1) (periodIndex (nT + 1) pm.updateInfo[j].period)) _ c +
          (1 - a) * obs₂ (jaxIndex (nT + 1) (periodIndex (nT + 1) pm.updateInfo[j].period)) _ c
        rw [jaxIndex_period hlt]
        obtain ⟨w₁, w₂, w₃, e1, e2, e3, hw⟩ := hO _ hper hqT c c.isLt
        obtain ⟨v₁, g1, g1'⟩ := hobs₁ ⟨_, hlt⟩ ⟨p₁.i, p₁.lt⟩ c
        obtain ⟨v₂, g2, g2'⟩ := hobs₂ ⟨_, hlt⟩ ⟨p₂.i, p₂.lt⟩ c
        obtain ⟨v₃, g3, g3'⟩ := hobs₃ ⟨_, hlt⟩ ⟨p₃.i, p₃.lt⟩ c
        obtain rfl := Option.some.inj (e1.symm.trans g1)
        obtain rfl := Option.some.inj (e2.symm.trans g2)
        obtain rfl := Option.some.inj (e3.symm.trans g3)
        rw [g1', g2', g3']
        exact combines_getD hw nan)
    (c₁ := (labelCarry m val p₁.ids.length pm.dimensions.nMixtures).select (fun _ : Fin 1 => ⟨p₁.i, p₁.lt⟩)) (c₂ := (labelCarry m val p₂.ids.length pm.dimensions.nMixtures).select (fun _ : Fin 1 => ⟨p₂.i, p₂.lt⟩))
    (c₃ := (labelCarry m val p₃.ids.length pm.dimensions.nMixtures).select (fun _ : Fin 1 => ⟨p₃.i, p₃.lt⟩)) ⟨rfl, rfl, fun _ _ _ => hself _⟩ k (by omega)
  obtain ⟨o₁, o₂, o₃, q1, q2, q3, hst, hres⟩ := key
  have q1 : (outs qr ((labelFixed custom m pm val p₁.ids.length nT con₁ obs₁).select (fun _ : Fin 1 => ⟨p₁.i, p₁.lt⟩)) ((labelCarry m val p₁.ids.length pm.dimensions.nMixtures).select (fun _ : Fin 1 => ⟨p₁.i, p₁.lt⟩))
    ((loopArgs (nT + 1) (pm.updateInfo.map (labelRow m val)) (List.ofFn data₁)).map (LoopArgs.select (fun _ : Fin 1 => ⟨p₁.i, p₁.lt⟩))))[k]? = some o₁ := q1
  have q2 : (outs qr ((labelFixed custom m pm val p₂.ids.length nT con₂ obs₂).select (fun _ : Fin 1 => ⟨p₂.i, p₂.lt⟩)) ((labelCarry m val p₂.ids.length pm.dimensions.nMixtures).select (fun _ : Fin 1 => ⟨p₂.i, p₂.lt⟩))
    ((loopArgs (nT + 1) (pm.updateInfo.map (labelRow m val)) (List.ofFn data₂)).map (LoopArgs.select (fun _ : Fin 1 => ⟨p₂.i, p₂.lt⟩))))[k]? = some o₂ := q2
  have q3 : (outs qr ((labelFixed custom m pm val p₃.ids.length nT con₃ obs₃).select (fun _ : Fin 1 => ⟨p₃.i, p₃.lt⟩)) ((labelCarry m val p₃.ids.length pm.dimensions.nMixtures).select (fun _ : Fin 1 => ⟨p₃.i, p₃.lt⟩))
    ((loopArgs (nT + 1) (pm.updateInfo.map (labelRow m val)) (List.ofFn data₃)).map (LoopArgs.select (fun _ : Fin 1 => ⟨p₃.i, p₃.lt⟩))))[k]? = some o₃ := q3
  rw [outs_select, ← ho1, List.getElem?_map, List.getElem?_eq_getElem (by omega), Option.map_some] at q1
  rw [outs_select, ← ho2, List.getElem?_map, List.getElem?_eq_getElem (by omega), Option.map_some] at q2
  rw [outs_select, ← ho3, List.getElem?_map, List.getElem?_eq_getElem (by omega), Option.map_some] at q3
  obtain rfl := Option.some.inj q1
  obtain rfl := Option.some.inj q2
  obtain rfl := Option.some.inj q3
  have hk1 : r₁.outs[k]? = some (r₁.outs[k]'(by omega)) := List.getElem?_eq_getElem (by omega)
  have hk2 : r₂.outs[k]? = some (r₂.outs[k]'(by omega)) := List.getElem?_eq_getElem (by omega)
  have hk3 : r₃.outs[k]? = some (r₃.outs[k]'(by omega)) := List.getElem?_eq_getElem (by omega)
  refine ⟨_, _, _, hk1, hk2, hk3, fun e f => hst 0 e f, fun e => hres 0 e, fun h2 e => ?_⟩
  rw [(hasNMixtures_of_ok hpm nM).mp hm.mixture] at h2
  have g1 := outs_oneWeight qr h2 _ ((congrArg (fun l => l[k]?) ho1).symm.trans hk1)
  have g2 := outs_oneWeight qr h2 _ ((congrArg (fun l => l[k]?) ho2).symm.trans hk2)
  have g3 := outs_oneWeight qr h2 _ ((congrArg (fun l => l[k]?) ho3).symm.trans hk3)
  rw [g1, g2, g3]
  exact ⟨rfl, rfl⟩

/-- The entries of a DataFrame with one row for each update, individual and mixture element. -/
theorem mem_debugBlocks {β : Type} {nObs nMix : ℕ} {data : List (Fin nObs → Fin nMix → β)} {u : List URow} {d : DebugRow β} (hd : d ∈ ((u.zip data).map (fun x => debugBlock x.1 x.2)).flatten) {i : Fin nObs}
    (hid : d.id = i.val * nMix + d.mixture) : ∃ (k : ℕ) (row : URow) (dat : Fin nObs → Fin nMix → β) (e : Fin nMix), u[k]? = some row ∧ data[k]? = some dat ∧ d = ⟨dat i e, e, row.period, i.val * nMix + e, row.var⟩ := by
  obtain ⟨block, hb, hmem⟩ := List.mem_flatten.mp hd
  obtain ⟨⟨row, dat⟩, hx, rfl⟩ := List.mem_map.mp hb
  obtain ⟨k, hk⟩ := List.getElem?_of_mem hx
  obtain ⟨hrow, hdat⟩ := List.getElem?_zip_eq_some.mp hk
  unfold debugBlock at hmem
  obtain ⟨⟨⟨v, e⟩, idx⟩, hz, rfl⟩ := List.mem_map.mp hmem
  have hz := List.mem_zipIdx_iff_getElem?.mp hz
  dsimp only at hid hz
  subst hid
  have he : e < nMix := by
    have := List.mem_of_getElem? hz
    unfold flattenMixtures at this
    obtain ⟨_, _, this⟩ := List.mem_flatMap.mp this
    obtain ⟨e', _, this⟩ := List.mem_map.mp this
    rw [← (Prod.mk.inj this).2]
    exact e'.isLt
  have hv := flattenMixtures_getElem? dat i ⟨e, he⟩
  dsimp only at hv
  rw [hz] at hv
  have hv := (Prod.mk.inj (Option.some.inj hv)).1
  exact ⟨k, row, dat, ⟨e, he⟩, hrow, hdat, by rw [hv]⟩

theorem debugBlocks_mem {β : Type} {nObs nMix : ℕ} {data : List (Fin nObs → Fin nMix → β)} {u : List URow} {k : ℕ} {row : URow} {dat : Fin nObs → Fin nMix → β} (hrow : u[k]? = some row) (hdat : data[k]? = some dat)
    (i : Fin nObs) (e : Fin nMix) : (⟨dat i e, e, row.period, i.val * nMix + e, row.var⟩ : DebugRow β) ∈ ((u.zip data).map (fun x => debugBlock x.1 x.2)).flatten := by
  refine List.mem_flatten.mpr ⟨_, List.mem_map.mpr ⟨(row, dat), List.mem_of_getElem? (List.getElem?_zip_eq_some.mpr ⟨hrow, hdat⟩), rfl⟩, ?_⟩
  unfold debugBlock
  refine List.mem_map.mpr ⟨((dat i e, e.val), i.val * nMix + e), List.mem_zipIdx_iff_getElem?.mpr ?_, rfl⟩
  exact flattenMixtures_getElem? dat i e

/-- **C143**: in all periods up to `T` the data of the third individual are `a` times the data of the first individual plus `1 - a` times the data of the second individual. In a model with linear or constant transition
functions, the same is true of their residuals in all these periods, for each mixture element. -/
theorem C143_residuals {qr : QR} {m : ModelDict ℝ} {nM : ℕ} (hm : LinearModel m nM) (hg : GoodNames m) (hkappa : ∀ o x, m.estimationOptions = some o → o.sigmaPointsScale = some x → 0 ≤ x)
    {custom : String → CustomFn} {nan : ℝ} {params : List (Loc × ℝ)} (hn : (params.map Prod.fst).Nodup) {a : ℝ} {T : ℕ} {p₁ p₂ p₃ : Person} (hs : CombinesUpTo m a T p₁ p₂ p₃)
    {inputs₁ inputs₂ inputs₃ : MaximizationInputs} (hin₁ : getMaximizationInputs m p₁.df = .ok inputs₁) (hin₂ : getMaximizationInputs m p₂.df = .ok inputs₂) (hin₃ : getMaximizationInputs m p₃.df = .ok inputs₃)
    {out₁ out₂ out₃ : DebugData} (h₁ : inputs₁.debugLoglike qr custom nan m params = .ok out₁) (h₂ : inputs₂.debugLoglike qr custom nan m params = .ok out₂)
    (h₃ : inputs₃.debugLoglike qr custom nan m params = .ok out₃) {d₁ d₂ : DebugRow (Option ℝ)} (hd₁ : d₁ ∈ out₁.residuals) (hd₂ : d₂ ∈ out₂.residuals) (hT : d₁.period ≤ T) (hper : d₂.period = d₁.period)
    (hmeas : d₂.measurement = d₁.measurement) (hmix : d₂.mixture = d₁.mixture) (hid₁ : d₁.id = p₁.i * nM + d₁.mixture) (hid₂ : d₂.id = p₂.i * nM + d₂.mixture) :
    ∃ x, Combines a d₁.value d₂.value x ∧ { d₁ with id := p₃.i * nM + d₁.mixture, value := x } ∈ out₃.residuals := by
  unfold MaximizationInputs.debugLoglike at h₁ h₂ h₃
  obtain ⟨pm, hpm⟩ : ∃ pm, processModel m = .ok pm := by
    have hin := hin₁
    unfold getMaximizationInputs at hin
    simp only [py_bind_ok] at hin
    obtain ⟨pm, hpm, _⟩ := hin
    exact ⟨pm, hpm⟩
  have hpr : ∀ {df : LongData ℝ} {inputs : MaximizationInputs}, getMaximizationInputs m df = .ok inputs → inputs.model = pm := by
    intro df inputs hin
    unfold getMaximizationInputs at hin
    simp only [py_bind_ok, py_pure_ok] at hin
    obtain ⟨pm1, hpm1, _, _, _, _, _, _, rfl⟩ := hin
    exact (Except.ok.inj (hpm.symm.trans hpm1)).symm
  rw [hpr hin₁] at h₁
  rw [hpr hin₂] at h₂
  rw [hpr hin₃] at h₃
  obtain ⟨r₁, r₂, r₃, q1, q2, q3, hl₁, hl₂, hl₃, key⟩ := evaluate_combines hpm hm hg hkappa hs hin₁ hin₂ hin₃ hn h₁ h₂ h₃
  obtain rfl := (hasNMixtures_of_ok hpm nM).mp hm.mixture
  rw [processResiduals_flatten (processDebugData_residuals q1).1] at hd₁
  rw [processResiduals_flatten (processDebugData_residuals q2).1] at hd₂
  rw [processResiduals_flatten (processDebugData_residuals q3).1]
  obtain ⟨k, row, dat, e, hk, hdat, rfl⟩ := mem_debugBlocks hd₁ (i := ⟨p₁.i, p₁.lt⟩) hid₁
  obtain ⟨k', row', dat', e', hk', hdat', rfl⟩ := mem_debugBlocks hd₂ (i := ⟨p₂.i, p₂.lt⟩) hid₂
  dsimp only at hT hper hmeas hmix
  obtain rfl := Fin.ext hmix
  have hkk : k' = k := by
    have hnd := (C01_update_info_exact hpm).1
    have hlt : k < (pm.updateInfo.map (fun r => (r.period, r.var))).length := by rw [List.length_map]; exact (List.getElem?_eq_some_iff.mp hk).1
    refine ((List.getElem?_inj hlt hnd).mp ?_).symm
    rw [List.getElem?_map, List.getElem?_map, hk, hk', Option.map_some, Option.map_some, hper, hmeas]
  subst hkk
  obtain ⟨o₁, o₂, o₃, g1, g2, g3, _, hres, _⟩ := key k' row hk hT
  rw [List.getElem?_map, g1, Option.map_some] at hdat
  rw [List.getElem?_map, g2, Option.map_some] at hdat'
  obtain rfl := Option.some.inj hdat
  obtain rfl := Option.some.inj hdat'
  exact ⟨_, hres e', debugBlocks_mem hk (by rw [List.getElem?_map, g3, Option.map_some]) ⟨p₃.i, p₃.lt⟩ e'⟩

/-- **C143**: in all periods up to `T` the data of the third individual are `a` times the data of the first individual plus `1 - a` times the data of the second individual. In a model with linear or constant transition
functions and one mixture element, the same is true of their filtered states in all these periods, and of their anchored filtered states. -/
theorem C143_filtered_states {qr : QR} {m : ModelDict ℝ} (hm : LinearModel m 1) (hg : GoodNames m) (hnames : ∀ f, IsLatent m f → f ≠ "period" ∧ f ≠ "id")
    (hkappa : ∀ o x, m.estimationOptions = some o → o.sigmaPointsScale = some x → 0 ≤ x) {custom : String → CustomFn} {nan : ℝ} {params : List (Loc × ℝ)} (hn : (params.map Prod.fst).Nodup) {a : ℝ} {T : ℕ}
    {p₁ p₂ p₃ : Person} (hs : CombinesUpTo m a T p₁ p₂ p₃) {out₁ out₂ out₃ : FilteredStates} (h₁ : getFilteredStates qr custom nan m p₁.df params = .ok out₁)
    (h₂ : getFilteredStates qr custom nan m p₂.df params = .ok out₂) (h₃ : getFilteredStates qr custom nan m p₃.df params = .ok out₃) {t : ℕ} (ht : IsPeriod m t) (htT : t ≤ T) {f : String} (hf : IsLatent m f) :
    (∃ x₁ x₂ x₃, out₁.unanchored.states.rows[t * p₁.ids.length + p₁.i]? = some (t, x₁) ∧ out₂.unanchored.states.rows[t * p₂.ids.length + p₂.i]? = some (t, x₂) ∧
      out₃.unanchored.states.rows[t * p₃.ids.length + p₃.i]? = some (t, x₃) ∧ x₁ "id" = p₁.i ∧ x₂ "id" = p₂.i ∧ x₃ "id" = p₃.i ∧ x₃ f = a * x₁ f + (1 - a) * x₂ f) ∧
    ∃ x₁ x₂ x₃, out₁.anchored.states.rows[t * p₁.ids.length + p₁.i]? = some (t, x₁) ∧ out₂.anchored.states.rows[t * p₂.ids.length + p₂.i]? = some (t, x₂) ∧
      out₃.anchored.states.rows[t * p₃.ids.length + p₃.i]? = some (t, x₃) ∧ x₁ "id" = p₁.i ∧ x₂ "id" = p₂.i ∧ x₃ "id" = p₃.i ∧ x₃ f = a * x₁ f + (1 - a) * x₂ f := by
  unfold getFilteredStates at h₁ h₂ h₃
  simp only [py_bind_ok, py_pure_ok] at h₁ h₂ h₃
  obtain ⟨inputs₁, hin₁, par, hpar, d₁, hdeb₁, pm, hpm, anc₁, hanc₁, rfl⟩ := h₁
  obtain ⟨inputs₂, hin₂, par₂, hpar₂, d₂, hdeb₂, pm₂, hpm₂, anc₂, hanc₂, rfl⟩ := h₂
  obtain ⟨inputs₃, hin₃, par₃, hpar₃, d₃, hdeb₃, pm₃, hpm₃, anc₃, hanc₃, rfl⟩ := h₃
  obtain rfl := Except.ok.inj (hpm.symm.trans hpm₂)
  obtain rfl := Except.ok.inj (hpm.symm.trans hpm₃)
  have hpr : ∀ {df : LongData ℝ} {inputs : MaximizationInputs}, getMaximizationInputs m df = .ok inputs → inputs.model = pm ∧ inputs.template = pm.paramsTemplate := by
    intro df inputs hin
    unfold getMaximizationInputs at hin
    simp only [py_bind_ok, py_pure_ok] at hin
    obtain ⟨pm1, hpm1, _, _, _, _, _, _, rfl⟩ := hin
    obtain rfl := Except.ok.inj (hpm.symm.trans hpm1)
    exact ⟨rfl, rfl⟩
  rw [(hpr hin₁).2] at hpar
  rw [(hpr hin₂).2] at hpar₂
  rw [(hpr hin₃).2] at hpar₃
  obtain rfl := Except.ok.inj (hpar.symm.trans hpar₂)
  obtain rfl := Except.ok.inj (hpar.symm.trans hpar₃)
  obtain ⟨hl1, hl2⟩ := locParams_ok hn hpar
  have hn' : (par.map Prod.fst).Nodup := by
    rw [hl1]
    simpa [Processed.paramsTemplate, addBounds, Function.comp_def] using C06_index_unique_partial hpm hg
  unfold MaximizationInputs.debugLoglike at hdeb₁ hdeb₂ hdeb₃
  rw [(hpr hin₁).1] at hdeb₁
  rw [(hpr hin₂).1] at hdeb₂
  rw [(hpr hin₃).1] at hdeb₃
  have hmeas' : ∀ t, IsPeriod m t → ∃ v f, Measures m t v f ∧ ¬ ∃ g, Anchors m v g := fun t ht => by
    obtain ⟨v, f, h⟩ := hm.measured t ht
    exact ⟨v, f, h, fun ⟨g, hg⟩ => hm.anchoring.1.notMeasured v g t f hg h⟩
  obtain ⟨b, hb⟩ : ∃ b : Fin (nLat m), latName m b = f := by
    obtain ⟨spec, hspec⟩ := hf
    have hmem : f ∈ m.factors.map Prod.fst := List.mem_map.mpr ⟨_, hspec, rfl⟩
    obtain ⟨j, hj⟩ := List.getElem?_of_mem hmem
    have hjl : j < nLat m := by simpa using (List.getElem?_eq_some_iff.mp hj).1
    exact ⟨⟨j, hjl⟩, Option.some.inj ((latName_get ⟨j, hjl⟩).symm.trans hj)⟩
  subst hb
  have hlabels : pm.labels.latentFactors = m.factors.map Prod.fst := (labels_of_ok hpm).1
  have hidx : (m.factors.map Prod.fst).idxOf (latName m b) = b := nodup_get? hg.keys.factors (latName_get b)
  obtain ⟨r₁, r₂, r₃, q1, q2, q3, hl₁, hl₂, hl₃, key⟩ := evaluate_combines hpm hm hg hkappa hs hin₁ hin₂ hin₃ hn' hdeb₁ hdeb₂ hdeb₃
  obtain ⟨rows₁, hr1, hf1, _⟩ := processDebugData_ok q1
  obtain ⟨rows₂, hr2, hf2, _⟩ := processDebugData_ok q2
  obtain ⟨rows₃, hr3, hf3, _⟩ := processDebugData_ok q3
  obtain ⟨_, e, _, hlast, hrow₁⟩ := C51_filtered_states_partial hpm hmeas' hl₁
  obtain rfl := Except.ok.inj (hr1.symm.trans e)
  obtain ⟨_, e, _, _, hrow₂⟩ := C51_filtered_states_partial hpm hmeas' hl₂
  obtain rfl := Except.ok.inj (hr2.symm.trans e)
  obtain ⟨_, e, _, _, hrow₃⟩ := C51_filtered_states_partial hpm hmeas' hl₃
  obtain rfl := Except.ok.inj (hr3.symm.trans e)
  obtain ⟨k, hk⟩ := hlast t ht
  obtain ⟨row, hrow, hrt, _⟩ := id hk
  obtain ⟨o₁, o₂, o₃, g1, g2, g3, hst, _, hw⟩ := key k row hrow (hrt ▸ htT)
  have hw := hw (by norm_num)
  have hstates : ∑ e, o₃.states ⟨p₃.i, p₃.lt⟩ e b * Real.exp (o₃.logWeights ⟨p₃.i, p₃.lt⟩ e) = a * (∑ e, o₁.states ⟨p₁.i, p₁.lt⟩ e b * Real.exp (o₁.logWeights ⟨p₁.i, p₁.lt⟩ e)) +
      (1 - a) * ∑ e, o₂.states ⟨p₂.i, p₂.lt⟩ e b * Real.exp (o₂.logWeights ⟨p₂.i, p₂.lt⟩ e) := by
    rw [Finset.mul_sum, Finset.mul_sum, ← Finset.sum_add_distrib]
    refine Finset.sum_congr rfl (fun e _ => ?_)
    rw [(hw e).1, (hw e).2, hst]
    ring
  obtain ⟨x₁, c1, _, i1, v1⟩ := filteredFrame_row (factors := pm.labels.latentFactors) (hrow₁ t k o₁ ⟨p₁.i, p₁.lt⟩ hk g1)
  obtain ⟨x₂, c2, _, i2, v2⟩ := filteredFrame_row (factors := pm.labels.latentFactors) (hrow₂ t k o₂ ⟨p₂.i, p₂.lt⟩ hk g2)
  obtain ⟨x₃, c3, _, i3, v3⟩ := filteredFrame_row (factors := pm.labels.latentFactors) (hrow₃ t k o₃ ⟨p₃.i, p₃.lt⟩ hk g3)
  have hgetD : ∀ x : Fin (nLat m) → ℝ, (List.ofFn x).getD ((m.factors.map Prod.fst).idxOf (latName m b)) 0 = x b := fun x => by
    rw [hidx, List.getD_eq_getElem?_getD, List.getElem?_ofFn, dif_pos b.isLt, Option.getD_some]
  have hcells : x₃ (latName m b) = a * x₁ (latName m b) + (1 - a) * x₂ (latName m b) := by
    rw [v1 _ (hnames _ hf).1 (hnames _ hf).2, v2 _ (hnames _ hf).1 (hnames _ hf).2, v3 _ (hnames _ hf).1 (hnames _ hf).2, hlabels, hgetD, hgetD, hgetD]
    exact hstates
  rw [← hf1] at c1
  rw [← hf2] at c2
  rw [← hf3] at c3
  refine ⟨⟨x₁, x₂, x₃, c1, c2, c3, i1, i2, i3, hcells⟩, ?_⟩
  obtain ⟨values, p, hvl, hvg, hparse, _, _, harow₁⟩ := C54_affine hpm hg.keys hanc₁
  obtain ⟨values₂, p', hvl₂, hvg₂, hparse₂, _, _, harow₂⟩ := C54_affine hpm hg.keys hanc₂
  obtain ⟨values₃, p'', hvl₃, hvg₃, hparse₃, _, _, harow₃⟩ := C54_affine hpm hg.keys hanc₃
  have hvalues : ∀ {vs vs' : List ℝ}, vs.length = pm.paramsIndex.length → (∀ (i : Nat) l, pm.paramsIndex[i]? = some l → vs[i]? = par.lookup l) → vs'.length = pm.paramsIndex.length →
      (∀ (i : Nat) l, pm.paramsIndex[i]? = some l → vs'[i]? = par.lookup l) → vs = vs' := by
    intro vs vs' k1 k2 k3 k4
    refine List.ext_getElem? (fun j => ?_)
    by_cases hj : j < pm.paramsIndex.length
    · rw [k2 j _ (List.getElem?_eq_getElem hj), k4 j _ (List.getElem?_eq_getElem hj)]
    · rw [List.getElem?_eq_none (by omega), List.getElem?_eq_none (by omega)]
  obtain rfl := hvalues hvl hvg hvl₂ hvg₂
  obtain rfl := hvalues hvl hvg hvl₃ hvg₃
  obtain rfl := Except.ok.inj (hparse.symm.trans hparse₂)
  obtain rfl := Except.ok.inj (hparse.symm.trans hparse₃)
  obtain ⟨y₁, a1, b1, c1'⟩ := harow₁ _ _ _ c1
  obtain ⟨y₂, a2, b2, c2'⟩ := harow₂ _ _ _ c2
  obtain ⟨y₃, a3, b3, c3'⟩ := harow₃ _ _ _ c3
  obtain ⟨s, c, e1, e2, e3⟩ := c1' b _ (latName_get b)
  obtain ⟨s', c', e1', e2', e3'⟩ := c2' b _ (latName_get b)
  obtain rfl := Option.some.inj (e1.symm.trans e1')
  obtain rfl := Option.some.inj (e2.symm.trans e2')
  obtain ⟨s', c', e1', e2', e3''⟩ := c3' b _ (latName_get b)
  obtain rfl := Option.some.inj (e1.symm.trans e1')
  obtain rfl := Option.some.inj (e2.symm.trans e2')
  refine ⟨y₁, y₂, y₃, a1, a2, a3, ?_, ?_, ?_, ?_⟩
  · rw [b1 _ (fun h => (hnames _ h).2 rfl), i1]
  · rw [b2 _ (fun h => (hnames _ h).2 rfl), i2]
  · rw [b3 _ (fun h => (hnames _ h).2 rfl), i3]
  · rw [e3, e3', e3'', hcells]
    ring

end Skill
