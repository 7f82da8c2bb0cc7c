import Verif.Lemmas.RenamedIndex
import Verif.Lemmas.RenamedParsing
/-
C111: names of factors, measurements, controls and anchoring outcomes are only names.
-/
namespace Skill
open Spec

section
variable {α : Type}

theorem renameModel_symm (ρ : Equiv.Perm String) (m : ModelDict α) : renameModel ρ.symm (renameModel ρ m) = m := by
  have hk : ∀ (γ : Type) (d : Dict γ), renameKeys ρ.symm (renameKeys ρ d) = d := fun γ d => by simp [renameKeys, Function.comp_def]
  have hf : ∀ spec : FactorSpec α, renameFactor ρ.symm (renameFactor ρ spec) = spec := by
    rintro ⟨ms, tr, ns⟩
    simp only [renameFactor, FactorSpec.mk.injEq, true_and]
    refine ⟨by simp [Function.comp_def], ?_⟩
    cases ns with
    | none => rfl
    | some ns =>
      obtain ⟨l, i⟩ := ns
      cases l <;> cases i <;> simp [Function.comp_def, hk]
  obtain ⟨fs, os, cs, sm, an, eo⟩ := m
  simp only [renameModel, ModelDict.mk.injEq, true_and, and_true]
  refine ⟨by simp [Function.comp_def, hf], by cases os <;> simp [Function.comp_def], by cases cs <;> simp [Function.comp_def], ?_⟩
  cases an with
  | none => rfl
  | some a =>
    obtain ⟨o, _, _, _, _⟩ := a
    cases o <;> simp [Function.comp_def]

variable [OfScientific α] [Neg α] [Zero α] [One α] [OfNat α 2] [DecidableEq α]

theorem accepted_rename (ρ : Equiv.Perm String) {m : ModelDict α} {pm : Processed α} (h : processModel m = .ok pm) : ∃ pm', processModel (renameModel ρ m) = .ok pm' := by
  obtain ⟨h1, h2, h3, h4, h5⟩ := (C02_accepts_iff m).mp ⟨pm, h⟩
  have hmem : ∀ f spec, (f, spec) ∈ (renameModel ρ m).factors → ∃ f0 s0, (f0, s0) ∈ m.factors ∧ f = ρ f0 ∧ spec = renameFactor ρ s0 := by
    intro f spec hm
    obtain ⟨⟨f0, s0⟩, h0, h1⟩ := List.mem_map.mp hm
    cases h1
    exact ⟨f0, s0, h0, rfl, rfl⟩
  have hper : ∀ n, IsNPeriods (renameModel ρ m) n → IsNPeriods m n := by
    rintro n ⟨⟨f, spec, hm, hn⟩, hall⟩
    obtain ⟨f0, s0, h0, rfl, rfl⟩ := hmem f spec hm
    refine ⟨⟨f0, s0, h0, by simpa [renameFactor] using hn⟩, fun g s hs => ?_⟩
    have := hall (ρ g) (renameFactor ρ s) (List.mem_map.mpr ⟨(g, s), hs, rfl⟩)
    simpa [renameFactor] using this
  have hload : ∀ (s : FactorSpec α) t v x, LoadingNorm (renameFactor ρ s) t v x → LoadingNorm s t (ρ.symm v) x := by
    rintro s t v x ⟨ns, ls, d, e1, e2, e3, e4⟩
    obtain ⟨ns0, f1, rfl⟩ := Option.map_eq_some_iff.mp e1
    obtain ⟨ls0, f2, rfl⟩ := Option.map_eq_some_iff.mp e2
    rw [List.getElem?_map] at e3
    obtain ⟨d0, f3, rfl⟩ := Option.map_eq_some_iff.mp e3
    obtain ⟨kv, f4, f5⟩ := List.mem_map.mp e4
    cases f5
    exact ⟨ns0, ls0, d0, f1, f2, f3, by simpa using f4⟩
  have hint : ∀ (s : FactorSpec α) t v x, InterceptNorm (renameFactor ρ s) t v x → InterceptNorm s t (ρ.symm v) x := by
    rintro s t v x ⟨ns, ls, d, e1, e2, e3, e4⟩
    obtain ⟨ns0, f1, rfl⟩ := Option.map_eq_some_iff.mp e1
    obtain ⟨ls0, f2, rfl⟩ := Option.map_eq_some_iff.mp e2
    rw [List.getElem?_map] at e3
    obtain ⟨d0, f3, rfl⟩ := Option.map_eq_some_iff.mp e3
    obtain ⟨kv, f4, f5⟩ := List.mem_map.mp e4
    cases f5
    exact ⟨ns0, ls0, d0, f1, f2, f3, by simpa using f4⟩
  have hmeas : ∀ (s : FactorSpec α) (t : Nat) (v : String), (∃ ms, s.measurements[t]? = some ms ∧ ρ.symm v ∈ ms) → ∃ ms, (renameFactor ρ s).measurements[t]? = some ms ∧ v ∈ ms := by
    rintro s t v ⟨ms, e1, e2⟩
    refine ⟨ms.map ρ, by simp [renameFactor, e1], List.mem_map.mpr ⟨_, e2, by simp⟩⟩
  refine (C02_accepts_iff _).mpr ⟨by simpa [renameModel] using h1, h2, ⟨fun n hn => h3.periods n (hper n hn), fun n sm hn hs => h3.stagemap n sm (hper n hn) hs, ?_, ?_⟩, ?_, ?_⟩
  · intro f spec t v x hm hl
    obtain ⟨f0, s0, h0, rfl, rfl⟩ := hmem f spec hm
    obtain ⟨a, b⟩ := h3.loadings f0 s0 t _ x h0 (hload s0 t v x hl)
    exact ⟨a, hmeas s0 t v b⟩
  · intro f spec t v x hm hl
    obtain ⟨f0, s0, h0, rfl, rfl⟩ := hmem f spec hm
    exact hmeas s0 t v (h3.intercepts f0 s0 t _ x h0 (hint s0 t v x hl))
  · intro f spec hm
    obtain ⟨f0, s0, h0, rfl, rfl⟩ := hmem f spec hm
    exact h4 f0 s0 h0
  · intro f spec ns n hm hns hn
    obtain ⟨f0, s0, h0, rfl, rfl⟩ := hmem f spec hm
    obtain ⟨ns0, f1, rfl⟩ := Option.map_eq_some_iff.mp hns
    obtain ⟨a, b⟩ := h5 f0 s0 ns0 n h0 f1 (hper n hn)
    refine ⟨fun ls hls => ?_, fun ls hls => ?_⟩
    · obtain ⟨ls0, f2, rfl⟩ := Option.map_eq_some_iff.mp hls
      simpa using a ls0 f2
    · obtain ⟨ls0, f2, rfl⟩ := Option.map_eq_some_iff.mp hls
      simpa using b ls0 f2

/-- C111: a model is accepted if and only if it is accepted with other names. -/
theorem C111_accepted (ρ : Equiv.Perm String) (m : ModelDict α) : (∃ pm', processModel (renameModel ρ m) = .ok pm') ↔ ∃ pm, processModel m = .ok pm := by
  constructor
  · rintro ⟨pm', h⟩
    have := accepted_rename ρ.symm h
    rwa [renameModel_symm] at this
  · rintro ⟨pm, h⟩
    exact accepted_rename ρ h

end

theorem logLikelihoodJax_map {γ δ : Type} (g : γ → δ) {post : (nObs nMix n : ℕ) → LoglikeResult nObs nMix n → Py γ} {post' : (nObs nMix n : ℕ) → LoglikeResult nObs nMix n → Py δ}
    (h : ∀ nObs nMix n r, post' nObs nMix n r = (post nObs nMix n r).map g) (qr : QR) (nObs nMix nT n nObserved nC : ℕ) (nan : ℝ) (fs : List String) (fns : Dict TransFn)
    (kappa : ℝ) (clip : ClipOptions) (u : List URow) (p : Parsed ℝ) (measurements : List (List (Option ℝ))) (controls observed : List (List (List (Option ℝ)))) :
    logLikelihoodJax post' qr nObs nMix nT n nObserved nC nan fs fns kappa clip u p measurements controls observed =
      (logLikelihoodJax post qr nObs nMix nT n nObserved nC nan fs fns kappa clip u p measurements controls observed).map g := by
  rw [logLikelihoodJax_eq, logLikelihoodJax_eq]
  simp only [bind_map_except, h]

theorem anchoredIn_of_getItem {m : ModelDict ℝ} {pm : Processed ℝ} (hpm : processModel m = .ok pm) {f o : String} (hfo : Dict.getItem pm.anchoring.outcomes f = .ok o) : AnchoredIn m f o := by
  rw [(processModel_ok_iff.mp hpm).2.2.2.2.1] at hfo
  unfold Dict.getItem Dict.get? at hfo
  cases hf : (processAnchoring m).outcomes.find? (fun kv => kv.1 == f) with
  | none => rw [hf] at hfo; cases hfo
  | some kv =>
    rw [hf] at hfo
    have h1 := List.mem_of_find?_eq_some hf
    have h2 : kv.1 = f := by simpa using List.find?_some hf
    have h3 : kv.2 = o := Except.ok.inj hfo
    subst h2 h3
    unfold processAnchoring at h1
    cases ha : m.anchoring with
    | none => rw [ha] at h1; simp at h1
    | some a =>
      rw [ha] at h1
      cases ho : a.outcomes with
      | none => simp [ho] at h1
      | some os => exact ⟨a, ha, os, ho, by simpa [ho] using h1⟩

/-- What get_maximization_inputs returns for the renamed model and data. -/
theorem inputs_rename (ρ : Equiv.Perm String) {m : ModelDict ℝ} (hρ : KeepsReserved ρ m) (hg : GoodNames m) (hg' : GoodNames (renameModel ρ m)) (hq : ∀ f, IsLatent m f → querySafe (ρ f)) {df : LongData ℝ}
    {inputs : MaximizationInputs} (hin : getMaximizationInputs m df = .ok inputs) :
    ∃ inputs', getMaximizationInputs (renameModel ρ m) (renameData ρ df) = .ok inputs' ∧ List.Forall₂ (RenamedLabel ρ m) inputs.index inputs'.index ∧ ProcessedRenamed ρ inputs.model inputs'.model ∧
      ∀ {γ δ : Type} (g : γ → δ) (post : (nObs nMix n : ℕ) → LoglikeResult nObs nMix n → Py γ) (post' : (nObs nMix n : ℕ) → LoglikeResult nObs nMix n → Py δ),
        (∀ nObs nMix n r, post' nObs nMix n r = (post nObs nMix n r).map g) → ∀ (qr : QR) (custom : String → CustomFn) (nan : ℝ) (values : List ℝ), values.length = inputs.index.length →
          inputs'.evaluate post' qr (renameCustom ρ custom) nan (renameModel ρ m) (inputs'.index.zip values) = (inputs.evaluate post qr custom nan m (inputs.index.zip values)).map g := by
  unfold getMaximizationInputs at hin
  simp only [py_bind_ok, py_pure_ok] at hin
  obtain ⟨pm, hpm, info, hinfo, data, hdata, cs, hcs, rfl⟩ := hin
  obtain ⟨pm', hpm'⟩ := accepted_rename ρ hpm
  have hr := processed_rename hρ hpm hpm'
  have hn := C06_index_unique_partial hpm hg
  have hn' := C06_index_unique_partial hpm' hg'
  have hlat : pm'.labels.latentFactors = (renameModel ρ m).factors.map Prod.fst := (labels_of_ok hpm').1
  obtain ⟨info', hinfo'⟩ : ∃ info', createParsingInfo pm'.paramsIndex pm'.updateInfo pm'.labels pm'.anchoring = .ok info' := by
    unfold createParsingInfo
    obtain ⟨tr, htr⟩ := mapM_exists (f := fun f => do
      let pos ← selectTransition pm'.paramsIndex f
      pure (f, pos)) (xs := pm'.labels.latentFactors) (fun f hf => by
        rw [hlat] at hf
        obtain ⟨fs, h1, h2⟩ := List.mem_map.mp hf
        obtain ⟨fs0, h3, h4⟩ := List.mem_map.mp h1
        have hs : querySafe f := by
          rw [← h2, ← h4]
          exact hq fs0.1 ⟨fs0.2, h3⟩
        unfold selectTransition
        rw [if_pos hs]
        exact ⟨_, rfl⟩)
    rw [htr]
    exact ⟨_, rfl⟩
  have hdata' : processData (renameData ρ df) pm'.labels pm'.updateInfo pm'.anchoring .estimation = .ok data := by
    rw [hr.anchoring, hr.updateInfo, processData_rename df pm.updateInfo hr.labels pm.anchoring .estimation hρ.constant]
    · exact hdata
    · exact fun f o hfo => hρ.anchors f o (anchoredIn_of_getItem hpm hfo)
  obtain ⟨cs', hcs'⟩ : ∃ cs', pm'.constraints = .ok cs' := by
    obtain ⟨_, _, _, _, _, _, hcs'⟩ := constraints_ok hpm' hg'.keys
    exact ⟨_, hcs'⟩
  refine ⟨{ model := pm', index := pm'.paramsIndex, info := info', data := data, constraints := cs', template := pm'.paramsTemplate }, ?_, index_labels hρ hpm hpm', hr, ?_⟩
  · unfold getMaximizationInputs
    simp only [py_bind_ok, py_pure_ok]
    exact ⟨pm', hpm', info', hinfo', data, hdata', cs', hcs', rfl⟩
  · intro γ δ g post post' hpost qr custom nan values hlen
    dsimp only at hlen
    have hl' : values.length = pm'.paramsIndex.length := by rw [hlen, (index_labels hρ hpm hpm').length_eq]
    have hvec : ∀ (index : List Loc), values.length = index.length → getJnpParamsVec (index.zip values) index = .ok values := by
      intro index hl
      have h1 : (index.zip values).map Prod.fst = index := List.map_fst_zip (by omega)
      have h2 : (index.zip values).map Prod.snd = values := List.map_snd_zip (by omega)
      unfold getJnpParamsVec
      rw [h1, h2]
      simp
    unfold MaximizationInputs.evaluate
    rw [hvec _ hl', hvec _ hlen]
    show MaximizationInputs.evaluateVec _ _ _ _ _ _ values = Except.map g (MaximizationInputs.evaluateVec _ _ _ _ _ _ values)
    unfold MaximizationInputs.evaluateVec
    dsimp only
    rw [parsingInfo_rename hr hn hn' hinfo hinfo', hr.dimensions, parseParams_rename Real.log values info pm.dimensions hr.labels, map_bind_except, bind_map_except, hr.labels.allFactors, hr.options, hr.updateInfo]
    refine bind_congr fun p => ?_
    rw [logLikelihoodJax_rename post' qr custom m _ _ _ _ _ _ nan _ _ _ _ p _ _ _]
    exact logLikelihoodJax_map g hpost _ _ _ _ _ _ _ _ _ _ _ _ _ _ _ _ _

/-- C111: the names of factors, measurements, controls and outcomes do not matter. With other names in the model and in the dataset the parameters have the correspondingly renamed labels, in the same order, and at the same
values the likelihood function returns the same results. -/
theorem C111_names (ρ : Equiv.Perm String) {m : ModelDict ℝ} (hρ : KeepsReserved ρ m) (hg : GoodNames m) (hg' : GoodNames (renameModel ρ m)) (hq : ∀ f, IsLatent m f → querySafe (ρ f)) {df : LongData ℝ}
    {inputs : MaximizationInputs} (hin : getMaximizationInputs m df = .ok inputs) :
    ∃ inputs', getMaximizationInputs (renameModel ρ m) (renameData ρ df) = .ok inputs' ∧ List.Forall₂ (RenamedLabel ρ m) inputs.index inputs'.index ∧
      ∀ (qr : QR) (custom : String → CustomFn) (nan : ℝ) (values : List ℝ), values.length = inputs.index.length →
        inputs'.loglike qr (renameCustom ρ custom) nan (renameModel ρ m) (inputs'.index.zip values) = inputs.loglike qr custom nan m (inputs.index.zip values) := by
  obtain ⟨inputs', h1, h2, _, h3⟩ := inputs_rename ρ hρ hg hg' hq hin
  refine ⟨inputs', h1, h2, fun qr custom nan values hlen => ?_⟩
  unfold MaximizationInputs.loglike
  rw [h3 id (fun nObs nMix n r => .ok (LoglikeResult.output nObs nMix n r)) (fun nObs nMix n r => .ok (LoglikeResult.output nObs nMix n r)) (fun _ _ _ _ => rfl) qr custom nan values hlen]
  cases inputs.evaluate (fun nObs nMix n r => .ok (LoglikeResult.output nObs nMix n r)) qr custom nan m (inputs.index.zip values) <;> rfl

end Skill
