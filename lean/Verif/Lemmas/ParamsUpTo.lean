import Verif.Spec.SimulationInputs
import Verif.Props.NoLookAhead
import Verif.Props.Pipeline
/- Two evaluations of the likelihood function with parameters that are the same up to some period. -/
namespace Skill
open Matrix Spec

section scan
variable {nObs nMix n nT nObserved nC : ℕ} {θ : Type}

/-- The outputs of the first `K` steps depend only on the arguments of these steps and on the predict steps between them. -/
theorem outs_prefix (qr : QR) {fixed fixed' : ScanFixed nObs nT n nObserved nC θ} (hcon : fixed.controls = fixed'.controls) (K : ℕ) {as as' : List (LoopArgs nObs n nC)} (h : ∀ k < K, as[k]? = as'[k]?)
    (hf : ∀ k, k + 1 < K → ∀ a, as[k]? = some a → a.isPredict = true → ∀ c : Carry nObs nMix n, predictCarry qr fixed c a.period = predictCarry qr fixed' c a.period)
    (c : Carry nObs nMix n) : ∀ k < K, (outs qr fixed c as)[k]? = (outs qr fixed' c as')[k]? := by
  induction K generalizing as as' c with
  | zero => intro k hk; omega
  | succ K ih =>
    intro k hk
    have h0 := h 0 (by omega)
    cases as with
    | nil =>
      cases as' with
      | nil => rfl
      | cons a' as' => simp at h0
    | cons a as =>
      cases as' with
      | nil => simp at h0
      | cons a' as' =>
        obtain rfl : a = a' := by simpa using h0
        have hu : scanUpdate qr fixed c a = scanUpdate qr fixed' c a := by
          unfold scanUpdate
          simp only [hcon]
        cases k with
        | zero =>
          simp only [outs, List.getElem?_cons_zero, stepOut, hu]
        | succ k =>
          have hs : step qr fixed c a = step qr fixed' c a := by
            unfold step
            rw [hu]
            split_ifs with hpred
            · exact hf 0 (by omega) a rfl hpred _
            · rfl
          simp only [outs, List.getElem?_cons_succ]
          rw [hs]
          exact ih (fun j hj => by simpa using h (j + 1) (by omega)) (fun j hj b hb => hf (j + 1) (by omega) b (by simpa using hb)) _ k (by omega)

end scan

section label
variable {m : ModelDict ℝ} {pm : Processed ℝ} {T : ℕ} {val val' : Loc → ℝ}

theorem labelRow_upTo (h : ∀ l, ParamUpTo T l → val l = val' l) {r : URow} (hT : r.period ≤ T) : labelRow m val r = labelRow m val' r := by
  have hl : ∀ l, l.period = r.period → l.cat ≠ .transition → l.cat ≠ .shockSds → val l = val' l := fun l h1 h2 h3 => h l ⟨h1 ▸ hT, by rintro (e | e) <;> contradiction⟩
  unfold labelRow
  congr 1
  · funext f
    split_ifs
    · exact hl _ rfl (by simp) (by simp)
    · rfl
  · funext f
    exact hl _ rfl (by simp) (by simp)
  · exact hl _ rfl (by simp) (by simp)

theorem labelCarry_upTo (h : ∀ l, ParamUpTo T l → val l = val' l) (nObs nMix : ℕ) : labelCarry m val nObs nMix = labelCarry m val' nObs nMix := by
  have hl : ∀ l, l.period = 0 → l.cat ≠ .transition → l.cat ≠ .shockSds → val l = val' l := fun l h1 h2 h3 => h l ⟨h1 ▸ Nat.zero_le _, by rintro (e | e) <;> contradiction⟩
  unfold labelCarry
  congr 1
  · funext i e f
    exact hl _ rfl (by simp) (by simp)
  · funext i e
    ext a b
    simp only [of_apply]
    split_ifs
    · exact hl _ rfl (by simp) (by simp)
    · rfl
  · funext i e
    rw [hl _ rfl (by simp) (by simp)]

theorem scalingOf_upTo (h : ∀ l, ParamUpTo T l → val l = val' l) {t : ℕ} (ht : t ≤ T) (f : String) : scalingOf m val t f = scalingOf m val' t f := by
  unfold scalingOf
  cases outcomeOf m f with
  | none => rfl
  | some o => exact h _ ⟨ht, by rintro (h | h) <;> cases h⟩

theorem constantOf_upTo (h : ∀ l, ParamUpTo T l → val l = val' l) {t : ℕ} (ht : t ≤ T) (f : String) : constantOf m val t f = constantOf m val' t f := by
  unfold constantOf
  split_ifs
  · rfl
  · cases outcomeOf m f with
    | none => rfl
    | some o => exact h _ ⟨ht, by rintro (h | h) <;> cases h⟩

theorem transParams_upTo (h : ∀ l, ParamUpTo T l → val l = val' l) {t : ℕ} (ht : t < T) : transParams pm val t = transParams pm val' t := by
  unfold transParams
  refine List.map_congr_left (fun fn _ => ?_)
  congr 1
  exact List.map_congr_left (fun nm _ => h _ ⟨ht.le, fun _ => ht⟩)

/-- The predict step from period t to period t + 1 uses the parameters up to period t + 1. -/
theorem predict_upTo (qr : QR) (h : ∀ l, ParamUpTo T l → val l = val' l) (custom : String → CustomFn) {nObs nT nMix : ℕ} {con : Fin (nT + 2) → Fin nObs → Fin (nCon m) → ℝ} {obs : Fin (nT + 2) → Fin nObs → Fin (nObsd m) → ℝ}
    {t : ℕ} (ht : t < T) (htT : t < nT + 1) (c : Carry nObs nMix (nLat m)) :
    predictCarry qr (labelFixed custom m pm val nObs nT con obs) c (t : Int) = predictCarry qr (labelFixed custom m pm val' nObs nT con obs) c (t : Int) := by
  have i1 : (jaxIndex nT (t : Int)).val = t := jaxIndex_val (k := nT) (t := t) (by omega)
  have i2 : (jaxIndex (nT + 1) (t : Int)).val = t := jaxIndex_val (k := nT + 1) (t := t) (by omega)
  have i3 : (jaxIndex (nT + 1) ((t : Int) + 1)).val = t + 1 := by
    have := jaxIndex_val (k := nT + 1) (t := t + 1) (by omega)
    exact_mod_cast this
  have e1 : (labelFixed custom m pm val nObs nT con obs).shockSds (jaxIndex nT t) = (labelFixed custom m pm val' nObs nT con obs).shockSds (jaxIndex nT t) := by
    funext f
    show val ⟨.shockSds, (jaxIndex nT (t : Int)).val, _, _⟩ = val' ⟨.shockSds, (jaxIndex nT (t : Int)).val, _, _⟩
    rw [i1]
    exact h _ ⟨ht.le, fun _ => ht⟩
  have e2 : (labelFixed custom m pm val nObs nT con obs).transition (jaxIndex nT t) = (labelFixed custom m pm val' nObs nT con obs).transition (jaxIndex nT t) := by
    show transParams pm val (jaxIndex nT (t : Int)).val = transParams pm val' (jaxIndex nT (t : Int)).val
    rw [i1]
    exact transParams_upTo h ht
  have e3 : ∀ j : Fin (nT + 2), j.val ≤ T → (labelFixed custom m pm val nObs nT con obs).scaling j = (labelFixed custom m pm val' nObs nT con obs).scaling j := fun j hj => by
    funext f
    exact scalingOf_upTo h hj _
  have e4 : ∀ j : Fin (nT + 2), j.val ≤ T → (labelFixed custom m pm val nObs nT con obs).constants j = (labelFixed custom m pm val' nObs nT con obs).constants j := fun j hj => by
    funext f
    exact constantOf_upTo h hj _
  unfold predictCarry
  rw [e1, e2, e3 _ (by omega), e3 _ (by omega), e4 _ (by omega), e4 _ (by omega)]
  rfl

/-- Two evaluations of the likelihood function with parameters that are the same up to period `T`. -/
theorem evaluate_params_upTo (hpm : processModel m = .ok pm) (hg : GoodNames m) (hc : CleanAnchoring m) (ho : SameOrder m) {df : LongData ℝ} {inputs : MaximizationInputs} (hin : getMaximizationInputs m df = .ok inputs)
    {γ γ' : Type} {post : (nObs nMix n : ℕ) → LoglikeResult nObs nMix n → Py γ} {post' : (nObs nMix n : ℕ) → LoglikeResult nObs nMix n → Py γ'} {qr : QR} {custom : String → CustomFn} {nan : ℝ}
    {params params' : List (Loc × ℝ)} (hn : (params.map Prod.fst).Nodup) (hn' : (params'.map Prod.fst).Nodup) (hsame : ∀ l x x', ParamUpTo T l → (l, x) ∈ params → (l, x') ∈ params' → x = x')
    {out : γ} {out' : γ'} (h : inputs.evaluate post qr custom nan m params = .ok out) (h' : inputs.evaluate post' qr custom nan m params' = .ok out') :
    ∃ (nObs : ℕ) (r r' : LoglikeResult nObs pm.dimensions.nMixtures (nLat m)), nObs = (inputs.data.controls.headD []).length ∧
      post nObs _ _ r = .ok out ∧ post' nObs _ _ r' = .ok out' ∧ r.outs.length = pm.updateInfo.length ∧ r'.outs.length = pm.updateInfo.length ∧
      (r.allContributions = r.outs.map (fun o => o.loglikes)) ∧ (r'.allContributions = r'.outs.map (fun o => o.loglikes)) ∧
      ∀ (k : ℕ) (row : URow), pm.updateInfo[k]? = some row → row.period ≤ T → r.outs[k]? = r'.outs[k]? := by
  classical
  let val : Loc → ℝ := fun l => ((params.lookup l).or (params'.lookup l)).getD 0
  let val' : Loc → ℝ := fun l => ((params'.lookup l).or (params.lookup l)).getD 0
  have hlk : ∀ {ps : List (Loc × ℝ)} {l : Loc} {x : ℝ}, ps.lookup l = some x → (l, x) ∈ ps := fun {ps l x} hx => by
    induction ps with
    | nil => cases hx
    | cons p ps ih =>
      obtain ⟨l', x'⟩ := p
      rw [List.lookup_cons] at hx
      cases e : (l == l') with
      | true =>
        rw [e] at hx
        rw [eq_of_beq e, Option.some.inj hx]
        exact List.mem_cons_self
      | false =>
        rw [e] at hx
        exact List.mem_cons_of_mem _ (ih hx)
  have hval : ∀ l x, (l, x) ∈ params → x = val l := fun l x hx => by
    show x = ((params.lookup l).or (params'.lookup l)).getD 0
    rw [lookup_of_mem hn hx]
    rfl
  have hval' : ∀ l x, (l, x) ∈ params' → x = val' l := fun l x hx => by
    show x = ((params'.lookup l).or (params.lookup l)).getD 0
    rw [lookup_of_mem hn' hx]
    rfl
  have hvv : ∀ l, ParamUpTo T l → val l = val' l := fun l hl => by
    show ((params.lookup l).or (params'.lookup l)).getD 0 = ((params'.lookup l).or (params.lookup l)).getD 0
    cases e1 : params.lookup l with
    | none => cases e2 : params'.lookup l <;> rfl
    | some x =>
      cases e2 : params'.lookup l with
      | none => rfl
      | some x' => exact hsame l x x' hl (hlk e1) (hlk e2)
  obtain ⟨pm1, nT, con, obs, data, r, hpm1, hT, _, hcon, hobs, hmeas, hr, hpost⟩ := evaluate_explicit hg hc ho hin hn hval h rfl
  obtain rfl := Except.ok.inj (hpm.symm.trans hpm1)
  obtain ⟨pm2, nT', con', obs', data', r', hpm2, hT', _, hcon', hobs', hmeas', hr', hpost'⟩ := evaluate_explicit hg hc ho hin hn' hval' h' rfl
  obtain rfl := Except.ok.inj (hpm.symm.trans hpm2)
  obtain rfl : nT = nT' := by omega
  obtain rfl : con = con' := by
    funext t i j
    obtain ⟨w, h1, h2⟩ := hcon t i j
    obtain ⟨w', h1', h2'⟩ := hcon' t i j
    rw [h2, h2', Option.some.inj (h1.symm.trans h1')]
  obtain rfl : obs = obs' := by
    funext t i j
    obtain ⟨w, h1, h2⟩ := hobs t i j
    obtain ⟨w', h1', h2'⟩ := hobs' t i j
    rw [h2, h2', Option.some.inj (h1.symm.trans h1')]
  obtain rfl : data = data' := by
    funext k i
    exact Option.some.inj ((hmeas k i).symm.trans (hmeas' k i))
  have hl : ∀ v : Loc → ℝ, (loopArgs (nT + 1) (pm.updateInfo.map (labelRow m v)) (List.ofFn data)).length = pm.updateInfo.length := fun v => by rw [loopArgs_length _ _ (by simp), List.length_map]
  obtain ⟨o1, o2, _⟩ := logLikelihood_ok hr
  obtain ⟨o1', o2', _⟩ := logLikelihood_ok hr'
  refine ⟨_, r, r', rfl, hpost, hpost', by rw [o1, outs_length, hl], by rw [o1', outs_length, hl], o2, o2', fun k row hrow hkT => ?_⟩
  obtain ⟨_, hmem, hsort, _⟩ := C01_update_info_exact hpm
  have hle : ∀ (j : ℕ) (q : URow), pm.updateInfo[j]? = some q → j ≤ k → q.period ≤ row.period := fun j q hq hj => by
    rcases hj.eq_or_lt with rfl | hj
    · rw [Option.some.inj (hq.symm.trans hrow)]
    · obtain ⟨a1, rfl⟩ := List.getElem?_eq_some_iff.mp hq
      obtain ⟨a2, rfl⟩ := List.getElem?_eq_some_iff.mp hrow
      exact List.pairwise_iff_getElem.mp hsort _ _ a1 a2 hj
  have hk := (List.getElem?_eq_some_iff.mp hrow).1
  rw [o1, o1', labelCarry_upTo hvv]
  have hargs : ∀ (v : Loc → ℝ) (j : ℕ) (q : URow) (hj : j < pm.updateInfo.length), pm.updateInfo[j]? = some q → (loopArgs (nT + 1) (pm.updateInfo.map (labelRow m v)) (List.ofFn data))[j]? =
      some { period := if q.period = nT + 1 then -1 else (q.period : Int), loadings := (labelRow m v q).loadings, controlParams := (labelRow m v q).controlParams, measSd := (labelRow m v q).sd, measurements := data ⟨j, hj⟩,
             isMeasurement := (labelRow m v q).isMeasurement, isPredict := decide ((pm.updateInfo[j + 1]?).map (fun r => r.period) = some (q.period + 1)) } := fun v j q hj hq => by
    have := loopArgs_get (nT + 1) (rows := pm.updateInfo.map (labelRow m v)) (data := List.ofFn data) (k := j) (r := labelRow m v q) (y := data ⟨j, hj⟩) (by rw [List.getElem?_map, hq]; rfl)
      (by rw [List.getElem?_ofFn, dif_pos hj])
    rw [this, List.getElem?_map, Option.map_map]
    rfl
  refine outs_prefix qr (fixed := labelFixed custom m pm val _ nT con obs) (fixed' := labelFixed custom m pm val' _ nT con obs) rfl (k + 1) (fun j hj => ?_) (fun j hj a ha hpred c => ?_) _ k (by omega)
  · have hj' : j < pm.updateInfo.length := by omega
    have hq : pm.updateInfo[j]? = some pm.updateInfo[j] := List.getElem?_eq_getElem hj'
    rw [hargs val j _ hj' hq, hargs val' j _ hj' hq, labelRow_upTo hvv ((hle j _ hq (by omega)).trans hkT)]
  · have hj' : j < pm.updateInfo.length := by omega
    have hj1 : j + 1 < pm.updateInfo.length := by omega
    have hq : pm.updateInfo[j]? = some pm.updateInfo[j] := List.getElem?_eq_getElem hj'
    have hq1 : pm.updateInfo[j + 1]? = some pm.updateInfo[j + 1] := List.getElem?_eq_getElem hj1
    rw [hargs val j _ hj' hq] at ha
    obtain rfl := Option.some.inj ha
    have hpred := of_decide_eq_true hpred
    rw [hq1] at hpred
    have hnext : pm.updateInfo[j + 1].period = pm.updateInfo[j].period + 1 := Option.some.inj hpred
    have h1 := (hle _ _ hq1 (by omega)).trans hkT
    have hP : pm.updateInfo[j + 1].period < nT + 2 := by
      have := isUpdate_period ((hmem _ _).mp ⟨_, List.getElem_mem hj1, rfl, rfl⟩)
      rw [isPeriod_iff hpm] at this
      omega
    dsimp only
    rw [if_neg (by omega)]
    exact predict_upTo qr hvv custom (by omega) (by omega) c

end label
end Skill
