import Verif.Lemmas.Anchoring
import Verif.Props.ConstraintsExamples
import Mathlib.LinearAlgebra.Matrix.PosDef
import Mathlib.LinearAlgebra.Matrix.Block
/-
C07, C08, C09, C10, C64: parsing of parameters.
-/
namespace Skill
open Spec
variable {α : Type} [OfScientific α] [Neg α] [Zero α] [One α] [OfNat α 2] [DecidableEq α]
variable {β : Type}

omit [OfScientific α] [Neg α] [Zero α] [One α] [OfNat α 2] [DecidableEq α] in
/-- The steps of a successful parse. -/
theorem parse_ok_iff [Zero β] [One β] {pm : Processed α} {log : β → β} {params : List β} {nObs : Nat} {p : Parsed β} :
    pm.parse log params nObs = .ok p ↔
    ∃ info, createParsingInfo pm.paramsIndex pm.updateInfo pm.labels pm.anchoring = .ok info ∧
      getInitialStates params info pm.dimensions nObs = .ok p.states ∧
      getInitialUpperChols params info pm.dimensions nObs = .ok p.upperChols ∧
      getInitialLogMixtureWeights log params info nObs = .ok p.logWeights ∧
      getControlParams params info pm.dimensions = .ok p.controls ∧
      getLoadings params info = .ok p.loadings ∧
      getMeasSds params info = .ok p.measSds ∧
      getShockSds params info pm.dimensions = .ok p.shockSds ∧
      getTransitionParams params info pm.labels = .ok p.transition ∧
      getAnchoringScalingFactors p.loadings info pm.dimensions = .ok p.scalingFactors ∧
      getAnchoringConstants p.controls info pm.dimensions = .ok p.anchoringConstants := by
  unfold Processed.parse parseParams
  simp only [py_bind_ok, py_pure_ok]
  constructor
  · rintro ⟨info, hi, a1, h1, a2, h2, a3, h3, a4, h4, a5, h5, a6, h6, a7, h7, a8, h8, a9, h9, a10, h10, rfl⟩
    exact ⟨info, hi, h1, h2, h3, h4, h5, h6, h7, h8, h9, h10⟩
  · rintro ⟨info, hi, h1, h2, h3, h4, h5, h6, h7, h8, h9, h10⟩
    exact ⟨info, hi, _, h1, _, h2, _, h3, _, h4, _, h5, _, h6, _, h7, _, h8, _, h9, _, h10, rfl⟩

theorem createParsingInfo_ok {index : List Loc} {u : List URow} {l : Labels} {a : AnchInfo} {info : ParsingInfo} :
    createParsingInfo index u l a = .ok info ↔
      ∃ tr, l.latentFactors.mapM (fun f => do
        let pos ← selectTransition index f
        pure (f, pos)) = .ok tr ∧
      info = { initialStates := selectCategory index .initialStates
               initialCholcovs := selectCategory index .initialCholcovs
               mixtureWeights := selectCategory index .mixtureWeights
               controls := selectCategory index .controls
               measSds := selectCategory index .measSds
               shockSds := selectCategory index .shockSds
               loadingsSlice := selectCategory index .loadings
               loadingsFlatIndices := positionsOf id (updateMask u l.latentFactors).flatten
               loadingsShape := (u.length, l.latentFactors.length)
               transition := tr
               isAnchoringLoading := ((updateMask u l.latentFactors).zip
                 (u.map (fun r => decide (r.purpose = .anchoring)))).map (fun (row, b) => row.map (fun x => x && b))
               isAnchoredFactor := l.latentFactors.map (fun f =>
                 (u.filter (fun r => decide (r.purpose = .anchoring))).any (fun r => decide (f ∈ r.trueCols)))
               isAnchoringUpdate := u.map (fun r => decide (r.purpose = .anchoring))
               ignoreConstant := a.ignoreConstant } := by
  unfold createParsingInfo
  simp only [py_bind_ok, py_pure_ok]
  constructor
  · rintro ⟨tr, h, rfl⟩; exact ⟨tr, h, rfl⟩
  · rintro ⟨tr, h, rfl⟩; exact ⟨tr, h, rfl⟩

omit [OfScientific α] [Neg α] [Zero α] [One α] [OfNat α 2] [DecidableEq α] in
/-- Every parameter vector of the right length assigns a value to each label. -/
theorem params_as_function [Zero β] {index : List Loc} (hn : index.Nodup) {params : List β}
    (hl : params.length = index.length) : ∃ val : Loc → β, params = index.map val := by
  refine ⟨fun l => params.getD (index.idxOf l) 0, ?_⟩
  apply List.ext_getElem (by simp [hl])
  intro i h1 h2
  rw [List.getElem_map, List.Nodup.idxOf_getElem hn, List.getD_eq_getElem?_getD, List.getElem?_eq_getElem h1]
  rfl

/-- Parsing succeeds only with at least one mixture element and two periods. -/
theorem parse_needs [Zero β] [One β] {m : ModelDict α} {pm : Processed α} (h : processModel m = .ok pm)
    {log : β → β} {nObs : Nat} {p : Parsed β} {params : List β} (hp : pm.parse log params nObs = .ok p) :
    pm.dimensions.nMixtures ≠ 0 ∧ 2 ≤ pm.dimensions.nPeriods := by
  rw [parse_ok_iff] at hp
  obtain ⟨info, _, _, h2, _, _, _, _, _, h8, _, _⟩ := hp
  have hmix : pm.dimensions.nMixtures ≠ 0 := by
    intro h0
    unfold getInitialUpperChols at h2
    rw [h0] at h2
    rw [py_bind_ok] at h2
    obtain ⟨xs, _, h2⟩ := h2
    rw [py_bind_ok] at h2
    obtain ⟨ys, h2, _⟩ := h2
    cases h2
  have hper : 2 ≤ pm.dimensions.nPeriods := by
    by_contra hc
    unfold getTransitionParams at h8
    have hl : pm.labels.periods.length - 1 = 0 := by rw [(labels_of_ok h).2.2.2.1]; simp; omega
    rw [hl, mapM_ok_iff] at h8
    obtain ⟨f, hf⟩ := List.exists_mem_of_ne_nil pm.labels.latentFactors (by
      rw [(labels_of_ok h).1]; simpa using factors_ne_nil h)
    obtain ⟨y, _, e⟩ := forall₂_mem h8 hf
    rw [py_bind_ok] at e
    obtain ⟨_, _, e⟩ := e
    rw [py_bind_ok] at e
    obtain ⟨_, _, e⟩ := e
    rw [py_bind_ok] at e
    obtain ⟨_, e, _⟩ := e
    cases e
  exact ⟨hmix, hper⟩

/-- **C07.** Parsed parameter arrays. `val l` is the value the user attached to the label `l`; by
`params_as_function` every vector of the right length is of this form. Each array is given entry by
entry: the entry belonging to an update, factor, control, period, mixture element or parameter name
is the value of the label that names it, and entries without a label are zero. -/
theorem C07_parsed_values [Zero β] [One β] {m : ModelDict α} {pm : Processed α} (h : processModel m = .ok pm)
    (hg : GoodNames m) {log : β → β} {nObs : Nat} {p : Parsed β} {params : List β} {val : Loc → β}
    (hv : params = pm.paramsIndex.map val) (hp : pm.parse log params nObs = .ok p) :
    -- per individual and mixture element: means, transposed lower Cholesky factors, log weights
    p.states = List.replicate nObs ((List.range pm.dimensions.nMixtures).map (fun e =>
      (m.factors.map Prod.fst).map (fun f => val ⟨.initialStates, 0, "mixture_" ++ toString e, f⟩))) ∧
    p.upperChols = List.replicate nObs ((List.range pm.dimensions.nMixtures).map (fun e =>
      (List.range m.factors.length).map (fun i => (List.range m.factors.length).map (fun j =>
        if i ≤ j then val ⟨.initialCholcovs, 0, "mixture_" ++ toString e,
          (m.factors.map Prod.fst).getD j "" ++ "-" ++ (m.factors.map Prod.fst).getD i ""⟩ else 0)))) ∧
    p.logWeights = List.replicate nObs ((List.range pm.dimensions.nMixtures).map (fun e =>
      log (val ⟨.mixtureWeights, 0, "mixture_" ++ toString e, "-"⟩))) ∧
    -- per row of update_info
    p.controls = pm.updateInfo.map (fun r => ("constant" :: m.controls.getD []).map
      (fun c => val ⟨.controls, r.period, r.var, c⟩)) ∧
    p.loadings = pm.updateInfo.map (fun r => (m.factors.map Prod.fst).map
      (fun f => if f ∈ r.trueCols then val ⟨.loadings, r.period, r.var, f⟩ else 0)) ∧
    p.measSds = pm.updateInfo.map (fun r => val ⟨.measSds, r.period, r.var, "-"⟩) ∧
    -- per transition
    p.shockSds = (List.range (pm.dimensions.nPeriods - 1)).map (fun t => (m.factors.map Prod.fst).map
      (fun f => val ⟨.shockSds, t, f, "-"⟩)) ∧
    p.transition = pm.transitionInfo.paramNames.map (fun fn => (fn.1,
      (List.range (pm.dimensions.nPeriods - 1)).map (fun t => fn.2.map
        (fun nm => val ⟨.transition, t, fn.1, nm⟩)))) := by
  subst hv
  obtain ⟨hmix, hper⟩ := parse_needs h hp
  rw [parse_ok_iff] at hp
  obtain ⟨info, hi, h1, h2, h3, h4, h5, h6, h7, h8, _, _⟩ := hp
  rw [createParsingInfo_ok] at hi
  obtain ⟨tr, htr, rfl⟩ := hi
  have hn := C06_index_unique_partial h hg
  rw [states_explicit h val rfl] at h1
  rw [chols_explicit h val rfl nObs hmix] at h2
  rw [weights_explicit val log rfl] at h3
  rw [controls_explicit h val rfl] at h4
  rw [loadings_explicit h val rfl rfl rfl] at h5
  rw [measSds_explicit val rfl] at h6
  rw [shockSds_explicit h val rfl] at h7
  rw [transition_explicit h hg.keys hn val htr hper] at h8
  exact ⟨(Except.ok.inj h1).symm, (Except.ok.inj h2).symm, (Except.ok.inj h3).symm, (Except.ok.inj h4).symm,
    (Except.ok.inj h5).symm, (Except.ok.inj h6).symm, (Except.ok.inj h7).symm, (Except.ok.inj h8).symm⟩

/-- **C64 (partial).** Every parameter vector of the right length can be parsed if there are at least
two periods and one mixture element and names cannot be confused. Missing for the full statement:
models with one period are accepted by process_model but cannot be parsed (see the counterexample). -/
theorem C64_parse_succeeds_partial [Zero β] [One β] {m : ModelDict α} {pm : Processed α} (h : processModel m = .ok pm)
    (hg : GoodNames m) (hc : CleanAnchoring m) (hq : ∀ f, IsLatent m f → querySafe f)
    (hper : IsPeriod m 1) (hmix : ¬ HasNMixtures m 0) (log : β → β) (nObs : Nat) (params : List β)
    (hl : params.length = pm.paramsIndex.length) : ∃ p, pm.parse log params nObs = .ok p := by
  have hn := C06_index_unique_partial h hg
  obtain ⟨val, rfl⟩ := params_as_function hn hl
  obtain ⟨tr, htr⟩ : ∃ tr, pm.labels.latentFactors.mapM (fun f => do
        let pos ← selectTransition pm.paramsIndex f
        pure (f, pos)) = (.ok tr : Py _) := by
    refine ⟨_, mapM_pure_ok _ (fun f => (f, (pm.paramsIndex.filter
      (fun l => decide (l.cat = .transition ∧ l.name1 = f))).flatMap (fun l => positionsOf (fun k => decide (k = l)) pm.paramsIndex))) _ ?_⟩
    intro f hf
    rw [(labels_of_ok h).1] at hf
    obtain ⟨⟨f', spec⟩, hs, rfl⟩ := List.mem_map.mp hf
    unfold selectTransition
    rw [if_pos (hq _ ⟨spec, hs⟩)]
    rfl
  have hmix' : pm.dimensions.nMixtures ≠ 0 := fun h0 => hmix ((hasNMixtures_of_ok h 0).mpr h0.symm)
  have hper' : 2 ≤ pm.dimensions.nPeriods := by rw [isPeriod_iff h] at hper; omega
  refine ⟨⟨_, _, _, _, _, _, _, _, _, _⟩, parse_ok_iff.mpr ⟨_, createParsingInfo_ok.mpr ⟨tr, htr, rfl⟩, states_explicit h val rfl nObs,
    chols_explicit h val rfl nObs hmix', weights_explicit val log rfl nObs, controls_explicit h val rfl,
    loadings_explicit h val rfl rfl rfl, measSds_explicit val rfl, shockSds_explicit h val rfl,
    transition_explicit h hg.keys hn val htr hper', scaling_explicit h hg.keys hc val rfl rfl, constants_explicit h hg.keys hc val rfl rfl⟩⟩

/-- Entry of a two dimensional array. -/
def at2 (a : List (List β)) (i j : Nat) : Option β := a[i]?.bind (fun row => row[j]?)

/-- **C08 (partial).** If the anchored factors are listed in the order of the factors, then the
scaling factor of a factor is the loading of the factor on its own anchoring outcome in the period
(1 for factors that are not anchored and for observed factors), and the anchoring constant is the
intercept of that equation (0 for factors that are not anchored and for observed factors, and for
all factors if ignore_constant_when_anchoring is set). Missing for the full statement: other orders,
for which the claim is false (see the counterexample). -/
theorem C08_anchoring_params_partial [Zero β] [One β] {m : ModelDict α} {pm : Processed α} (h : processModel m = .ok pm)
    (hg : GoodNames m) (hc : CleanAnchoring m) (ho : SameOrder m) {log : β → β} {nObs : Nat} {p : Parsed β}
    {params : List β} {val : Loc → β} (hv : params = pm.paramsIndex.map val) (hp : pm.parse log params nObs = .ok p)
    (t j : Nat) (f : String) (ht : IsPeriod m t) (hf : (allFactors m)[j]? = some f) :
    (∀ o, AnchoredIn m f o →
      at2 p.scalingFactors t j = some (val ⟨.loadings, t, o ++ "_" ++ f, f⟩) ∧
      (¬ AnchorFlag m AnchoringSpec.ignoreConstant →
        at2 p.anchoringConstants t j = some (val ⟨.controls, t, o ++ "_" ++ f, "constant"⟩))) ∧
    ((¬ ∃ o, AnchoredIn m f o) → at2 p.scalingFactors t j = some 1 ∧ at2 p.anchoringConstants t j = some 0) ∧
    (AnchorFlag m AnchoringSpec.ignoreConstant → at2 p.anchoringConstants t j = some 0) := by
  obtain ⟨_, _, _, hcon, hload, _⟩ := C07_parsed_values h hg hv hp
  subst hv
  rw [parse_ok_iff] at hp
  obtain ⟨info, hi, _, _, _, _, _, _, _, _, h9, h10⟩ := hp
  rw [createParsingInfo_ok] at hi
  obtain ⟨tr, htr, rfl⟩ := hi
  rw [hload, scaling_explicit h hg.keys hc val rfl rfl] at h9
  rw [hcon, constants_explicit h hg.keys hc val rfl rfl] at h10
  have h9 := (Except.ok.inj h9).symm
  have h10 := (Except.ok.inj h10).symm
  have hos : (outcomesOf m).map Prod.fst = (m.factors.map Prod.fst).filter (fun f => decide (f ∈ (outcomesOf m).map Prod.fst)) := by
    unfold outcomesOf
    cases ha : m.anchoring with
    | none => simp
    | some a =>
      cases hb : a.outcomes with
      | none => simp [hb]
      | some os =>
        have e : ((some a).bind AnchoringSpec.outcomes).getD [] = os := by simp [hb]
        rw [e]
        exact ho a os ha hb
  -- the outcome of a factor
  let out : String → String := fun f => (Dict.get? (outcomesOf m) f).getD ""
  have hout : ∀ f o, (f, o) ∈ outcomesOf m → out f = o := by
    intro f o hfo
    have := Dict.getItem_of_mem (outcomesOf_nodup hg.keys) hfo
    unfold Dict.getItem at this
    show (Dict.get? (outcomesOf m) f).getD "" = o
    split at this
    · next v hv => rw [hv]; exact Except.ok.inj this
    · cases this
  have hvals : ∀ (g : String → String → β), (outcomesOf m).map (fun fo => g fo.1 fo.2) =
      ((m.factors.map Prod.fst).filter (fun f => decide (f ∈ (outcomesOf m).map Prod.fst))).map (fun f => g f (out f)) := by
    intro g
    rw [← hos, List.map_map]
    apply List.map_congr_left
    rintro ⟨f, o⟩ hfo
    simp only [Function.comp]
    rw [hout f o hfo]
  have ht' := (isPeriod_iff h t).mp ht
  have hig : pm.anchoring.ignoreConstant = true ↔ AnchorFlag m AnchoringSpec.ignoreConstant := by
    rw [(processModel_ok_iff.mp h).2.2.2.2.1]
    unfold processAnchoring AnchorFlag
    cases m.anchoring with
    | none => simp
    | some a => cases hx : a.ignoreConstant <;> simp [hx]
  have hrow1 : p.scalingFactors[t]? = some ((m.factors.map Prod.fst).map (fun f => if f ∈ (outcomesOf m).map Prod.fst then
      val ⟨.loadings, t, out f ++ "_" ++ f, f⟩ else 1) ++ List.replicate (m.observedFactors.getD []).length 1) := by
    rw [h9, List.getElem?_map, List.getElem?_range ht']
    rw [Option.map_some, hvals (fun f o => val ⟨.loadings, t, o ++ "_" ++ f, f⟩), setMasked_map]
    simp only [decide_eq_true_eq]
  have hrow2 : p.anchoringConstants[t]? = some ((m.factors.map Prod.fst).map (fun f => if ¬ pm.anchoring.ignoreConstant ∧ f ∈ (outcomesOf m).map Prod.fst then
      val ⟨.controls, t, out f ++ "_" ++ f, "constant"⟩ else 0) ++ List.replicate (m.observedFactors.getD []).length 0) := by
    rw [h10, List.getElem?_map, List.getElem?_range ht']
    rw [Option.map_some, hvals (fun f o => val ⟨.controls, t, o ++ "_" ++ f, "constant"⟩), setMasked_map]
    cases pm.anchoring.ignoreConstant
    · simp only [decide_eq_true_eq, Bool.false_eq_true, if_false, not_false_eq_true, true_and]
    · simp only [if_true, not_true_eq_false, false_and, if_false, List.map_const']
  unfold at2
  rw [hrow1, hrow2]
  simp only [Option.bind_some]
  unfold allFactors at hf
  rcases Nat.lt_or_ge j (m.factors.map Prod.fst).length with hj | hj
  · rw [List.getElem?_append_left hj] at hf
    have e1 : ∀ g : String → β, ((m.factors.map Prod.fst).map g)[j]? = some (g f) := by
      intro g; rw [List.getElem?_map, hf]; rfl
    rw [List.getElem?_append_left (by simpa using hj), List.getElem?_append_left (by simpa using hj), e1, e1]
    simp only [Option.some.injEq]
    refine ⟨?_, ?_, ?_⟩
    · intro o hfo
      rw [← mem_outcomesOf] at hfo
      have hmem : f ∈ (outcomesOf m).map Prod.fst := List.mem_map.mpr ⟨_, hfo, rfl⟩
      refine ⟨?_, ?_⟩
      · rw [if_pos hmem, hout f o hfo]
      · intro hnot
        rw [← hig] at hnot
        rw [if_pos ⟨hnot, hmem⟩, hout f o hfo]
    · intro hnot
      have hmem : f ∉ (outcomesOf m).map Prod.fst := by
        intro hc2
        obtain ⟨⟨f', o⟩, hfo, rfl⟩ := List.mem_map.mp hc2
        exact hnot ⟨o, mem_outcomesOf.mp hfo⟩
      rw [if_neg hmem, if_neg (by rintro ⟨_, h2⟩; exact hmem h2)]
      exact ⟨rfl, rfl⟩
    · intro hflag
      rw [if_neg (by rintro ⟨h1, _⟩; exact h1 (hig.mpr hflag))]
  · rw [List.getElem?_append_right hj] at hf
    have hnl : ¬ ∃ o, AnchoredIn m f o := by
      rintro ⟨o, hfo⟩
      obtain ⟨spec, hs⟩ := hc.latent f o hfo
      have hd := hg.distinct
      unfold allFactors at hd
      rw [List.nodup_append] at hd
      exact hd.2.2 f (List.mem_map.mpr ⟨_, hs, rfl⟩) f (List.mem_of_getElem? hf) rfl
    have hlt : j - (m.factors.map Prod.fst).length < (m.observedFactors.getD []).length :=
      (List.getElem?_eq_some_iff.mp hf).1
    rw [List.getElem?_append_right (by simpa using hj), List.getElem?_append_right (by simpa using hj),
      List.getElem?_replicate, List.getElem?_replicate]
    simp only [List.length_map] at hlt ⊢
    rw [if_pos hlt, if_pos hlt]
    exact ⟨fun o hfo => absurd ⟨o, hfo⟩ hnl, fun _ => ⟨rfl, rfl⟩, fun _ => rfl⟩

end Skill
